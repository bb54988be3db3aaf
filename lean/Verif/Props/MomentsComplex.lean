import Verif.Props.Moments
import Mathlib.Analysis.Complex.Basic
import Mathlib.Analysis.RCLike.Basic

/-!
# C24 for complex samples: the covariance matrix is positive semidefinite
-/

namespace SampleFlow

open Spec

/-- C24: for real and for complex samples the matrix is positive semidefinite in the usual sense (Hermitian, and `v* C v ≥ 0` for all complex vectors `v`). -/
theorem C24_psd_complex {𝕜 : Type} [RCLike 𝕜] {d : Nat} (M : Fin d → 𝕜) (C₀ G : Fin d → Fin d → 𝕜) (xs : List (Fin d → 𝕜)) (h : 2 ≤ xs.length) (v : Fin d → 𝕜) :
    0 ≤ RCLike.re (∑ i, ∑ j, star (v i) * (covAfter M C₀ G xs).get i j * v j) ∧ RCLike.im (∑ i, ∑ j, star (v i) * (covAfter M C₀ G xs).get i j * v j) = 0 := by
  have hC : ∀ i j, star (v i) * (covAfter M C₀ G xs).get i j * v j =
      ((xs.map (fun x => star (v i) * (x i - vmean xs i) * star (star (v j) * (x j - vmean xs j)))).sum) / ((xs.length : 𝕜) - 1) := by
    intro i j
    rw [C23_covariance M C₀ G xs h, mul_div_assoc', div_mul_eq_mul_div]
    congr 1
    rw [← List.sum_map_mul_left, ← List.sum_map_mul_right]
    congr 1
    apply List.map_congr_left
    intro x _
    rw [star_mul', star_star]
    ring
  simp only [hC]
  have hn : ((xs.length : 𝕜) - 1) = (((xs.length : ℝ) - 1 : ℝ) : 𝕜) := by push_cast; rfl
  have hpos : (0:ℝ) < (xs.length : ℝ) - 1 := by
    have : (2:ℝ) ≤ xs.length := by exact_mod_cast h
    linarith
  simp only [← Finset.sum_div]
  have key : ∀ (m : Fin d → 𝕜) (ys : List (Fin d → 𝕜)), ∃ r : ℝ, 0 ≤ r ∧ (∑ i, ∑ j, (ys.map (fun x => star (v i) * (x i - m i) * star (star (v j) * (x j - m j)))).sum) = (r : 𝕜) := by
    intro m ys
    induction ys with
    | nil => exact ⟨0, le_rfl, by simp⟩
    | cons x ys ih =>
      obtain ⟨r, hr, he⟩ := ih
      refine ⟨‖∑ i, star (v i) * (x i - m i)‖ ^ 2 + r, by positivity, ?_⟩
      simp only [List.map_cons, List.sum_cons, Finset.sum_add_distrib, he]
      rw [RCLike.ofReal_add, RCLike.ofReal_pow, ← RCLike.mul_conj, map_sum, Finset.sum_mul_sum]
      rfl
  obtain ⟨r, hr, he⟩ := key (vmean xs) xs
  rw [he, hn, ← RCLike.ofReal_div]
  exact ⟨by rw [RCLike.ofReal_re]; exact div_nonneg hr hpos.le, RCLike.ofReal_im _⟩

example := C24_psd_complex (𝕜 := ℂ) (d := 2) (fun _ => 3) (fun _ _ => 1) (fun _ _ => 7) [fun _ => 1, fun i => if i = 0 then Complex.I else 2] (by simp)

end SampleFlow
