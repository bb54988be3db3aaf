import Verif.Spec.Gnuplot
import Verif.Props.Histogram

/-!
# Property C70: the picture of a PairHistogram

`write_gnuplot` is meant to draw each bin as a box over its rectangle, as high as the count of the bin ("we really have to plot everything as rectangles").  It draws five of the six faces; instead of
the bottom it draws a triangle.
-/

namespace SampleFlow

open Spec

variable {D : Type}

theorem readSurfaces_surface (done : List (Surface D)) (a b c d : D × D × Nat) (ls : List (PlotLine D)) :
    readSurfaces done [] [] (plotSurface a b c d ++ ls) = readSurfaces (done ++ [[[a, b], [c, d]]]) [] [] ls := by
  simp [plotSurface, readSurfaces]

/-- The six surfaces for a bin. -/
def binSurfaces (bin : (D × D) × (D × D) × Nat) : List (Surface D) :=
  [Face.front.grid bin, Face.back.grid bin, Face.left.grid bin, Face.right.grid bin,
    [[Face.bottom.at bin false false, Face.bottom.at bin true false], [Face.bottom.at bin true false, Face.bottom.at bin true true]], Face.top.grid bin]

theorem readSurfaces_bin (done : List (Surface D)) (bin : (D × D) × (D × D) × Nat) (ls : List (PlotLine D)) :
    readSurfaces done [] [] (plotBin bin ++ ls) = readSurfaces (done ++ binSurfaces bin) [] [] ls := by
  simp only [plotBin, List.append_assoc, readSurfaces_surface]
  simp [binSurfaces, Face.grid, Face.at, corner]

theorem readSurfaces_bins (done : List (Surface D)) (bins : List ((D × D) × (D × D) × Nat)) :
    readSurfaces done [] [] (bins.flatMap plotBin) = done ++ bins.flatMap binSurfaces := by
  induction bins generalizing done with
  | nil => simp [readSurfaces]
  | cons b bins ih => rw [List.flatMap_cons, readSurfaces_bin, ih, List.flatMap_cons, List.append_assoc]

theorem flatMap_drop_take {α β : Type} (f : α → List β) (m : Nat) (hf : ∀ a, (f a).length = m) (l : List α) (k : Nat) (a : α)
    (h : l[k]? = some a) : ((l.flatMap f).drop (m * k)).take m = f a := by
  induction l generalizing k with
  | nil => simp at h
  | cons b l ih =>
    cases k with
    | zero =>
      simp only [List.getElem?_cons_zero, Option.some.injEq] at h
      subst h
      simp [← hf b]
    | succ k =>
      rw [List.flatMap_cons, show m * (k + 1) = (f b).length + m * k by rw [hf]; ring, List.drop_append]
      simp only [Nat.add_sub_cancel_left, List.drop_eq_nil_of_le (Nat.le_add_right _ _), List.nil_append]
      exact ih k h

/-- **C70** (partial). For every histogram: the file consists of six surfaces for each entry of `get()`, in this order; among the six surfaces for entry `k` are five faces of the box over its rectangle
whose height is its count: all but the bottom. -/
theorem C70_five_faces_partial (h : PairHist D) (bins : List ((D × D) × (D × D) × Nat)) (hg : h.get = .ok bins) :
    ∃ file, h.writeGnuplot = .ok file ∧ (drawn file).length = 6 * bins.length ∧
      ∀ (k : Nat) (bin : (D × D) × (D × D) × Nat), bins[k]? = some bin → ∀ f : Face, f ≠ .bottom →
        f.grid bin ∈ ((drawn file).drop (6 * k)).take 6 := by
  have hd : drawn (bins.flatMap plotBin) = bins.flatMap binSurfaces := by
    unfold drawn; rw [readSurfaces_bins]; rfl
  refine ⟨bins.flatMap plotBin, by rw [PairHist.writeGnuplot, hg]; rfl, ?_, ?_⟩
  · rw [hd]
    clear hg hd
    induction bins with
    | nil => rfl
    | cons b bins ih => rw [List.flatMap_cons, List.length_append, ih]; simp [binSurfaces]; omega
  · intro k bin hk f hf
    rw [hd, flatMap_drop_take binSurfaces 6 (fun _ => rfl) bins k bin hk]
    cases f <;> simp_all [binSurfaces]

/-- **C70**, a bin without samples: all six faces are there (the top coincides with the bottom), so the picture is complete. -/
theorem C70_empty_bin_partial (h : PairHist D) (bins : List ((D × D) × (D × D) × Nat)) (hg : h.get = .ok bins)
    (k : Nat) (bin : (D × D) × (D × D) × Nat) (hk : bins[k]? = some bin) (h0 : bin.2.2 = 0) (f : Face) :
    ∃ file, h.writeGnuplot = .ok file ∧ f.grid bin ∈ ((drawn file).drop (6 * k)).take 6 := by
  obtain ⟨file, h1, -, h2⟩ := C70_five_faces_partial h bins hg
  refine ⟨file, h1, ?_⟩
  by_cases hf : f = .bottom
  · subst hf
    have := h2 k bin hk .top (by simp)
    have e : Face.bottom.grid bin = Face.top.grid bin := by simp [Face.grid, Face.at, corner, h0]
    rw [e]; exact this
  · exact h2 k bin hk f hf

/-- **C70 is violated**: for no bin that contains samples any of its six surfaces is the bottom of the box, in any order of the corners.  The surface written for the bottom lacks the corner
with the smaller `x` and the larger `y`: it is a triangle. -/
theorem C70_violation_bottom (h : PairHist D) (bins : List ((D × D) × (D × D) × Nat)) (hg : h.get = .ok bins)
    (k : Nat) (bin : (D × D) × (D × D) × Nat) (hk : bins[k]? = some bin) (hx : bin.1.1 ≠ bin.2.1.1) (hy : bin.1.2 ≠ bin.2.1.2)
    (hc : bin.2.2 ≠ 0) :
    ∃ file, h.writeGnuplot = .ok file ∧
      (∀ g ∈ ((drawn file).drop (6 * k)).take 6, ¬ g.flatten.Perm (Face.bottom.grid bin).flatten) ∧
      ∃ g ∈ ((drawn file).drop (6 * k)).take 6, g.flatten ⊆ (Face.bottom.grid bin).flatten ∧ corner bin false true false ∉ g.flatten := by
  have hd : drawn (bins.flatMap plotBin) = bins.flatMap binSurfaces := by
    unfold drawn; rw [readSurfaces_bins]; rfl
  refine ⟨bins.flatMap plotBin, by rw [PairHist.writeGnuplot, hg]; rfl, ?_⟩
  rw [hd, flatMap_drop_take binSurfaces 6 (fun _ => rfl) bins k bin hk]
  obtain ⟨⟨x0, y0⟩, ⟨x1, y1⟩, c⟩ := bin
  simp only at hx hy hc
  constructor
  · intro g hgm hp
    have hin : ∀ p ∈ (Face.bottom.grid ((x0, y0), (x1, y1), c)).flatten, p ∈ g.flatten := fun p hp' => hp.symm.subset hp'
    have h01 := hin (corner ((x0, y0), (x1, y1), c) false true false) (by simp [Face.grid, Face.at])
    have h10 := hin (corner ((x0, y0), (x1, y1), c) true false false) (by simp [Face.grid, Face.at])
    simp only [binSurfaces, List.mem_cons, List.not_mem_nil, or_false] at hgm
    rcases hgm with rfl | rfl | rfl | rfl | rfl | rfl <;>
      simp_all [Face.grid, Face.at, corner, Ne.symm hx, Ne.symm hy, hx, hy, Ne.symm hc]
  · refine ⟨_, by simp only [binSurfaces, List.mem_cons]; exact Or.inr (Or.inr (Or.inr (Or.inr (Or.inl rfl)))), ?_, ?_⟩
    · intro p hp
      simp [Face.grid, Face.at] at hp ⊢
      rcases hp with rfl | rfl | rfl | rfl <;> simp
    · simp [Face.at, corner, Ne.symm hx, Ne.symm hy, hx, hy]

/-- The hypotheses can be met: a histogram with two bins, `[0,1] x [0,1]` with two samples, `[0,1] x [1,3]` without samples. -/
example : ∃ bins, (⟨[0, 1], [0, 1, 3], fun _ y => if y = 0 then 2 else 0⟩ : PairHist Nat).get = .ok bins ∧
    bins = [((0, 0), (1, 1), 2), ((0, 1), (1, 3), 0)] := ⟨_, rfl, rfl⟩

/-- The 42 lines written for a histogram with one bin. -/
example : ∃ file, (⟨[0, 1], [0, 1], fun _ _ => 2⟩ : PairHist Nat).writeGnuplot = .ok file ∧ file.length = 42 ∧
    file.take 7 = [.point (0, 0, 0), .point (1, 0, 0), .blank, .point (0, 0, 2), .point (1, 0, 2), .blank, .blank] := ⟨_, rfl, rfl, rfl⟩

/-! ### Instances: concrete cases that meet the hypotheses of the theorems above -/

example := C70_five_faces_partial (⟨[0, 1], [0, 1, 3], fun _ y => if y = 0 then 2 else 0⟩ : PairHist Nat) _ rfl
example := C70_empty_bin_partial (⟨[0, 1], [0, 1, 3], fun _ y => if y = 0 then 2 else 0⟩ : PairHist Nat) _ rfl 1 ((0, 1), (1, 3), 0) rfl rfl .bottom
example := C70_violation_bottom (⟨[0, 1], [0, 1, 3], fun _ y => if y = 0 then 2 else 0⟩ : PairHist Nat) _ rfl 0 ((0, 0), (1, 1), 2) rfl (by decide) (by decide) (by decide)

end SampleFlow
