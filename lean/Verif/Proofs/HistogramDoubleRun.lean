import Verif.Model.HistogramDouble
import Verif.Proofs.HistogramRounding

/-!
# Proofs for C74: histograms of IEEE doubles
-/

namespace SampleFlow.HistDouble

open XR

theorem ltb_fin (a b : ℝ) : ltb (.fin a) (.fin b) = decide (a < b) := rfl

theorem leb_fin (a b : ℝ) : leb (.fin a) (.fin b) = decide (a ≤ b) := by
  by_cases h : a < b
  · simp [leb, ltb, eqb, h, h.le]
  · by_cases h2 : a = b
    · simp [leb, ltb, eqb, h2]
    · have : ¬ a ≤ b := fun h3 => h2 (le_antisymm h3 (not_lt.mp h))
      simp [leb, ltb, eqb, h, h2, this]

theorem readAt_map (l : List ℝ) (i : Nat) : readAt (l.map XR.fin) i = (readAt l i).map XR.fin := by
  simp only [readAt, List.getElem?_map]
  cases l[i]? <;> rfl

theorem loop_fin (pts : List ℝ) (x : ℝ) : ∀ len first, lowerBoundLoop (pts.map .fin) (.fin x) first len = SampleFlow.lowerBoundLoop pts (.num x) first len := by
  intro len
  induction len using Nat.strong_induction_on with
  | _ len ih =>
    intro first
    rw [lowerBoundLoop, SampleFlow.lowerBoundLoop]
    by_cases hlen : 0 < len
    · rw [dif_pos hlen, dif_pos hlen]
      simp only [List.getElem?_map]
      cases pts[first + len / 2]? with
      | none => rfl
      | some p =>
        simp only [Option.map_some, ltb_fin, Fl.ptLt]
        by_cases hp : p < x
        · simp only [hp, decide_true, if_true]
          exact ih _ (by omega) _
        · simp only [hp, decide_false, Bool.false_eq_true, if_false]
          exact ih _ (by omega) _
    · rw [dif_neg hlen, dif_neg hlen]

theorem bin_fin (debug : Bool) (pts : List ℝ) (x : ℝ) : binNumber debug (pts.map .fin) (.fin x) = SampleFlow.binNumber debug Fl.lePt pts (.num x) := by
  unfold binNumber SampleFlow.binNumber lowerBound
  simp only [readAt_map, List.length_map, loop_fin]
  cases readAt pts 0 with
  | error e => rfl
  | ok f =>
    cases readAt pts (pts.length - 1) with
    | error e => rfl
    | ok b =>
      have e1 : XR.leb (.fin f) (.fin x) = Fl.gePt (.num x) f := leb_fin f x
      have e2 : XR.leb (.fin x) (.fin b) = Fl.lePt (.num x) b := leb_fin x b
      show (if (debug && !(XR.leb (.fin f) (.fin x) && XR.leb (.fin x) (.fin b))) = true then _ else _) = _
      rw [e1, e2]
      rfl

/-- The histogram with finite interval points. -/
def lift (h : Hist ℝ) : Hist XR := ⟨h.points.map .fin, h.bins⟩

theorem consume_fin (debug : Bool) (h : Hist ℝ) (x : ℝ) : consume debug (lift h) (.fin x) = (Hist.consume debug h (.num x)).map lift := by
  unfold consume Hist.consume
  simp only [lift, readAt_map, List.length_map, bin_fin]
  cases readAt h.points 0 with
  | error e => rfl
  | ok f =>
    cases readAt h.points (h.points.length - 1) with
    | error e => rfl
    | ok b =>
      have e1 : XR.ltb (.fin x) (.fin f) = Fl.ltPt (.num x) f := ltb_fin x f
      have e2 : XR.leb (.fin b) (.fin x) = Fl.gePt (.num x) b := leb_fin b x
      simp only [Except.map, bind, Except.bind]
      rw [e1, e2]
      by_cases hc : (Fl.ltPt (.num x) f || Fl.gePt (.num x) b) = true
      · simp only [hc, if_true]; rfl
      · simp only [hc, Bool.false_eq_true, if_false]
        cases SampleFlow.binNumber debug Fl.lePt h.points (.num x) with
        | error e => rfl
        | ok k =>
          by_cases hk : k < h.bins.length
          · simp only [hk, if_true]; rfl
          · simp only [hk, if_false]; rfl

theorem consume_inf (debug : Bool) (h : Hist ℝ) (hne : h.points ≠ []) (v : XR) (hv : v = .posInf ∨ v = .negInf) : consume debug (lift h) v = .ok (lift h) := by
  obtain ⟨f, hf⟩ : ∃ f, readAt h.points 0 = .ok f := by
    cases hp : h.points with
    | nil => exact absurd hp hne
    | cons a l => exact ⟨a, rfl⟩
  have hlen : h.points.length - 1 < h.points.length := by
    have := List.length_pos_iff.mpr hne
    omega
  obtain ⟨b, hb⟩ : ∃ b, readAt h.points (h.points.length - 1) = .ok b := ⟨h.points[h.points.length - 1], by simp [readAt, List.getElem?_eq_getElem hlen]⟩
  unfold consume
  simp only [lift, readAt_map, List.length_map, hf, hb, Except.map, bind, Except.bind]
  rcases hv with rfl | rfl
  · simp [ltb, leb]; rfl
  · simp [ltb, leb]; rfl

/-- The finite ones among some doubles, in the order given. -/
noncomputable def finite (xs : List XR) : List ℝ := xs.filterMap fun v => match v with
  | .fin x => some x
  | _ => none

theorem consume_points {debug : Bool} {h h' : Hist ℝ} {v : Fl ℝ} (hc : Hist.consume debug h v = .ok h') : h'.points = h.points := by
  unfold Hist.consume at hc
  cases h1 : readAt h.points 0 with
  | error e => rw [h1] at hc; cases hc
  | ok f =>
    rw [h1] at hc
    cases h2 : readAt h.points (h.points.length - 1) with
    | error e => rw [h2] at hc; cases hc
    | ok b =>
      rw [h2] at hc
      simp only [bind, Except.bind] at hc
      split at hc
      · cases hc; rfl
      · cases h3 : SampleFlow.binNumber debug Fl.lePt h.points v with
        | error e => rw [h3] at hc; cases hc
        | ok k =>
          rw [h3] at hc
          dsimp only at hc
          split at hc <;> (cases hc; rfl)

theorem after_fin (debug : Bool) (xs : List XR) : ∀ (h : Hist ℝ), h.points ≠ [] → XR.nan ∉ xs → after debug (lift h) xs = (histAfter debug h ((finite xs).map .num)).map lift := by
  induction xs with
  | nil => intro h _ _; rfl
  | cons v xs ih =>
    intro h hne hnan
    have hnan' : XR.nan ∉ xs := fun hm => hnan (List.mem_cons_of_mem _ hm)
    have hskip : v = .posInf ∨ v = .negInf → after debug (lift h) (v :: xs) = (histAfter debug h ((finite (v :: xs)).map .num)).map lift := by
      intro hv
      have e1 : finite (v :: xs) = finite xs := by rcases hv with rfl | rfl <;> rfl
      have e2 : after debug (lift h) (v :: xs) = after debug (lift h) xs := by
        show (consume debug (lift h) v >>= fun h' => after debug h' xs) = _
        rw [consume_inf debug h hne v hv]
        rfl
      rw [e1, e2, ih h hne hnan']
    cases v with
    | nan => exact absurd (List.mem_cons_self ..) hnan
    | posInf => exact hskip (.inl rfl)
    | negInf => exact hskip (.inr rfl)
    | fin x =>
      have e1 : finite (.fin x :: xs) = x :: finite xs := rfl
      have e2 : after debug (lift h) (.fin x :: xs) = (consume debug (lift h) (.fin x) >>= fun h' => after debug h' xs) := rfl
      have e3 : histAfter debug h ((finite (.fin x :: xs)).map .num) = (Hist.consume debug h (.num x) >>= fun h' => histAfter debug h' ((finite xs).map .num)) := rfl
      rw [e2, e3, consume_fin]
      cases hc : Hist.consume debug h (.num x) with
      | error e => rfl
      | ok h' =>
        have hp := consume_points hc
        exact ih h' (by rw [hp]; exact hne) hnan'

theorem row_fin (h : Hist ℝ) (k : Nat) : row (lift h) k = (Hist.row h k).map (fun r => (.fin r.1, .fin r.2.1, r.2.2)) := by
  unfold row Hist.row
  simp only [lift, readAt_map]
  cases readAt h.points k with
  | error e => rfl
  | ok a =>
    cases readAt h.points (k + 1) with
    | error e => rfl
    | ok b =>
      cases readAt h.bins k with
      | error e => rfl
      | ok c => rfl

theorem mapM_map_ok {α β γ : Type} (f : α → Except Fault β) (g : β → γ) (l : List α) : l.mapM (fun a => (f a).map g) = (l.mapM f).map (List.map g) := by
  induction l with
  | nil => rfl
  | cons a l ih =>
    rw [List.mapM_cons, List.mapM_cons, ih]
    cases f a with
    | error e => rfl
    | ok b =>
      cases l.mapM f with
      | error e => rfl
      | ok bs => rfl

theorem get_fin (h : Hist ℝ) : get (lift h) = h.get.map (List.map (fun r => (.fin r.1, .fin r.2.1, r.2.2))) := by
  unfold get Hist.get
  rw [← mapM_map_ok]
  congr 1
  funext k
  exact row_fin h k

end SampleFlow.HistDouble

namespace SampleFlow.HistDouble

open XR

theorem countP_finite (p : XR → Bool) (q : ℝ → Bool) (hfin : ∀ x, p (.fin x) = q x) (hpos : p .posInf = false) (hneg : p .negInf = false) (xs : List XR) (hnan : XR.nan ∉ xs) :
    (finite xs).countP q = xs.countP p := by
  induction xs with
  | nil => rfl
  | cons v xs ih =>
    have ih' := ih (fun hm => hnan (List.mem_cons_of_mem _ hm))
    cases v with
    | nan => exact absurd (List.mem_cons_self ..) hnan
    | posInf => rw [List.countP_cons, hpos, show finite (.posInf :: xs) = finite xs from rfl, ih']; rfl
    | negInf => rw [List.countP_cons, hneg, show finite (.negInf :: xs) = finite xs from rfl, ih']; rfl
    | fin x => rw [List.countP_cons, hfin, show finite (.fin x :: xs) = x :: finite xs from rfl, List.countP_cons, ih']

theorem loop_false (pts : List XR) (v : XR) (hall : ∀ p ∈ pts, ltb p v = false) : ∀ len first, first + len ≤ pts.length → lowerBoundLoop pts v first len = .ok first := by
  intro len
  induction len using Nat.strong_induction_on with
  | _ len ih =>
    intro first hlen
    rw [lowerBoundLoop]
    by_cases h0 : 0 < len
    · rw [dif_pos h0]
      have hm : first + len / 2 < pts.length := by omega
      simp only [List.getElem?_eq_getElem hm, hall _ (List.getElem_mem hm), Bool.false_eq_true, if_false]
      exact ih _ (by omega) _ (by omega)
    · rw [dif_neg h0]

theorem ltb_of_not_leb {a v : XR} (h : leb a v = false) : ltb a v = false := by
  unfold leb at h
  exact (Bool.or_eq_false_iff.mp h).1

/-- The interval points when `max - min` overflows. -/
def overflowed (hi : ℝ) (n : Nat) : List XR := .nan :: List.replicate (n - 1) .posInf ++ [.fin hi]

theorem overflowed_front (hi : ℝ) (n : Nat) : readAt (overflowed hi n) 0 = .ok .nan := rfl

theorem overflowed_back (hi : ℝ) (n : Nat) : readAt (overflowed hi n) ((overflowed hi n).length - 1) = .ok (.fin hi) := by
  have hlen : (overflowed hi n).length - 1 < (overflowed hi n).length := by simp [overflowed]
  have : (overflowed hi n)[(overflowed hi n).length - 1] = .fin hi := by
    rw [List.getElem_length_sub_one_eq_getLast]
    simp [overflowed]
  simp [readAt, List.getElem?_eq_getElem hlen, this]

theorem consume_overflowed_out (debug : Bool) (hi : ℝ) (n : Nat) (bins : List Nat) (v : XR) (hv : leb (.fin hi) v = true) :
    consume debug ⟨overflowed hi n, bins⟩ v = .ok ⟨overflowed hi n, bins⟩ := by
  unfold consume
  simp only [overflowed_front, overflowed_back, bind, Except.bind, hv, Bool.or_true, if_true]
  rfl

theorem ltb_nan_right (v : XR) : ltb v .nan = false := by cases v <;> rfl

theorem leb_nan_left (v : XR) : leb .nan v = false := by cases v <;> rfl

theorem ltb_posInf_left (v : XR) : ltb .posInf v = false := by cases v <;> rfl

theorem loop_overflowed (hi : ℝ) (n : Nat) (v : XR) (hv : leb (.fin hi) v = false) : lowerBoundLoop (overflowed hi n) v 0 (overflowed hi n).length = .ok 0 := by
  apply loop_false
  · intro p hp
    rcases List.mem_append.mp hp with h | h
    · rcases List.mem_cons.mp h with rfl | h
      · cases v <;> rfl
      · rw [List.eq_of_mem_replicate h]; exact ltb_posInf_left v
    · rw [List.mem_singleton.mp h]; exact ltb_of_not_leb hv
  · omega

theorem consume_overflowed_debug (hi : ℝ) (n : Nat) (bins : List Nat) (v : XR) (hv : leb (.fin hi) v = false) :
    consume true ⟨overflowed hi n, bins⟩ v = .error .assertion := by
  unfold consume binNumber
  simp only [overflowed_front, overflowed_back, bind, Except.bind, hv, ltb_nan_right, leb_nan_left, Bool.or_false, Bool.false_eq_true, if_false, Bool.false_and, Bool.not_false, Bool.and_self, if_true]
  rfl

theorem consume_overflowed_release (hi : ℝ) (n : Nat) (c : Nat) (bins : List Nat) (v : XR) (hv : leb (.fin hi) v = false) :
    consume false ⟨overflowed hi n, c :: bins⟩ v = .ok ⟨overflowed hi n, (c + 1) :: bins⟩ := by
  unfold consume binNumber
  simp only [overflowed_front, overflowed_back, bind, Except.bind, hv, ltb_nan_right, Bool.or_false, Bool.false_eq_true, if_false, Bool.false_and, loop_overflowed hi n v hv]
  rfl

theorem after_overflowed (hi : ℝ) (n : Nat) (bins : List Nat) (xs : List XR) : ∀ c, after false ⟨overflowed hi n, c :: bins⟩ xs = .ok ⟨overflowed hi n, (c + xs.countP (fun v => !leb (.fin hi) v)) :: bins⟩ := by
  induction xs with
  | nil => intro c; rfl
  | cons v xs ih =>
    intro c
    show (consume false ⟨overflowed hi n, c :: bins⟩ v >>= fun h' => after false h' xs) = _
    rw [List.countP_cons]
    cases hv : leb (.fin hi) v with
    | true =>
      rw [consume_overflowed_out false hi n _ v hv]
      exact ih c
    | false =>
      rw [consume_overflowed_release hi n c _ v hv]
      refine (ih (c + 1)).trans ?_
      simp only [Bool.not_false, if_true]
      rw [show c + 1 + List.countP (fun v => !leb (.fin hi) v) xs = c + (List.countP (fun v => !leb (.fin hi) v) xs + 1) by omega]

end SampleFlow.HistDouble
