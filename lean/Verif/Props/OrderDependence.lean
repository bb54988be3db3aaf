import Verif.Props.OrderIndependence
import Verif.Props.Moments
import Verif.Props.SimpleConsumers
import Mathlib.Tactic.NormNum

/-!
# C22, the converse: the consumers that allow only synchronous mode depend on the order of samples
(LastSample and AcceptanceRatio: Props/OrderIndependence)
-/

namespace SampleFlow

open Spec

/-- C22, converse: AutoCovarianceTrace depends on the order (1, 2, 3 has lag 1 autocovariance 0, and 2, 1, 3 has -1). -/
theorem C22_autoCovarianceTrace_depends_on_order (M : Unit → ℚ) : ∃ xs ys : List (Unit → ℚ), xs.Perm ys ∧
    (do let s ← actAfter 1 M xs; s.get 1) ≠ (do let s ← actAfter 1 M ys; s.get 1) := by
  refine ⟨[fun _ => 1, fun _ => 2, fun _ => 3], [fun _ => 2, fun _ => 1, fun _ => 3], List.Perm.swap _ _ _, ?_⟩
  rw [C25_autoCovarianceTrace 1 M _ (by simp), C25_autoCovarianceTrace 1 M _ (by simp)]
  intro h
  injection h with h
  have h1 := congrArg (fun l => l[1]?) h
  norm_num [List.range_succ, lagPairs, vmean, mean] at h1

/-- C22, converse: AutoCovarianceMatrix depends on the order. -/
theorem C22_autoCovarianceMatrix_depends_on_order (G : Nat → Unit → Unit → ℚ) (M : Unit → ℚ) : ∃ xs ys : List (Unit → ℚ), xs.Perm ys ∧
    (do let s ← acmAfter 1 G M xs; s.get 1) ≠ (do let s ← acmAfter 1 G M ys; s.get 1) := by
  refine ⟨[fun _ => 1, fun _ => 2, fun _ => 3], [fun _ => 2, fun _ => 1, fun _ => 3], List.Perm.swap _ _ _, ?_⟩
  rw [C26_autoCovarianceMatrix 1 G M _ (by simp), C26_autoCovarianceMatrix 1 G M _ (by simp)]
  intro h
  injection h with h
  have h1 := congrArg (fun l : List (Unit → Unit → ℚ) => l[1]?.map (fun m => m () ())) h
  norm_num [List.range_succ, lagPairs, vmean, mean] at h1

/-- C22, converse: StreamOutput depends on the order. -/
theorem C22_streamOutput_depends_on_order : ∃ xs ys : List Printable, xs.Perm ys ∧ streamAfter xs ≠ streamAfter ys :=
  ⟨[.scalar ['1'], .scalar ['2']], [.scalar ['2'], .scalar ['1']], List.Perm.swap _ _ _, by simp [streamAfter, streamConsume, Printable.write]⟩

/-- C22, converse: AverageCosinus depends on the order (1, 1, -1 has average cosine 0 for lag 1, and 1, -1, 1 has -1). -/
theorem C22_averageCosinus_depends_on_order (A₀ : Nat → ℝ) (G1 G2 : Nat → Unit → ℝ) : ∃ xs ys : List (Unit → ℝ), xs.Perm ys ∧
    ∃ s s', cosAfter 32 1 A₀ G1 G2 xs = .ok s ∧ cosAfter 32 1 A₀ G1 G2 ys = .ok s' ∧ s.avg 0 ≠ s'.avg 0 := by
  refine ⟨[fun _ => 1, fun _ => 1, fun _ => -1], [fun _ => 1, fun _ => -1, fun _ => 1], List.Perm.cons _ (List.Perm.swap _ _ _), ?_⟩
  have hz : ∀ a : ℝ, a ≠ 0 → (fun _ : Unit => a) ≠ 0 := fun a ha h0 => ha (congrFun h0 ())
  obtain ⟨s, h1, h2⟩ := C28_averageCosinus 32 1 le_rfl A₀ G1 G2 [fun _ => 1, fun _ => 1, fun _ => -1] (by simp) (by norm_num)
    (by intro x hx; simp only [List.mem_cons, List.not_mem_nil, or_false] at hx; rcases hx with rfl | rfl | rfl <;> exact hz _ (by norm_num))
  obtain ⟨s', h1', h2'⟩ := C28_averageCosinus 32 1 le_rfl A₀ G1 G2 [fun _ => 1, fun _ => -1, fun _ => 1] (by simp) (by norm_num)
    (by intro x hx; simp only [List.mem_cons, List.not_mem_nil, or_false] at hx; rcases hx with rfl | rfl | rfl <;> exact hz _ (by norm_num))
  refine ⟨s, s', h1, h1', ?_⟩
  rw [h2 0 one_pos, h2' 0 one_pos]
  norm_num [lagPairs, ← cosine_eq_cosAngle, cosine]

end SampleFlow
