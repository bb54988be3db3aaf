import Verif.Proofs.Filters

/-!
# Properties C01-C05: the filters
-/

namespace SampleFlow

open Spec

/-! ## C01 TakeEveryNth -/

/-- C01: `TakeEveryNth(n)`, `n ≥ 1`, forwards exactly the messages whose position is a multiple
of `n`, unchanged and in order, and never fails. -/
theorem C01_takeEveryNth (α A : Type) (n : UInt64) (hn : n ≠ 0) (xs : List (Msg α A)) :
    (takeEveryNth α A n).issued xs = keepAt (fun k => n.toNat ∣ k) xs ∧
    (takeEveryNth α A n).outcome xs = .ok () := by
  have h := takeEveryNth_runFrom n hn xs 0 0 (by simp) (by simp)
  refine ⟨?_, ?_⟩
  · rw [keepAt_eq]; exact h.1
  · obtain ⟨s, hs⟩ := h.2
    simp only [FilterObj.outcome]
    have : (takeEveryNth α A n).init = 0 := rfl
    rw [this, hs]; rfl

/-- An instance of C01. -/
example := C01_takeEveryNth Nat Unit 3 (by decide) [(10,()),(11,()),(12,()),(13,()),(14,())]

/-- The hypothesis is satisfiable and the conclusion is not trivial. -/
example : (takeEveryNth Nat Unit 3).issued [(10,()),(11,()),(12,()),(13,()),(14,()),(15,()),(16,())]
    = [(10,()),(13,()),(16,())] := by decide

/-- C01, the excluded point `n = 0`: the first sample already is undefined behaviour and nothing
is forwarded. -/
theorem C01_takeEveryNth_zero_is_ub (α A : Type) (x : Msg α A) (xs : List (Msg α A)) :
    (takeEveryNth α A 0).issued (x :: xs) = [] ∧
    (takeEveryNth α A 0).outcome (x :: xs) = .error .ub := by
  constructor <;> rfl

/-! ## C02 DiscardFirstN -/

/-- C02: sample number `k` is forwarded iff `(k+1) mod 2^64 > n`; the filter never fails. -/
theorem C02_discardFirstN (α A : Type) (n : UInt64) (xs : List (Msg α A)) :
    (discardFirstN α A n).issued xs = keepAt (fun k => (k + 1) % 2^64 > n.toNat) xs ∧
    (discardFirstN α A n).outcome xs = .ok () := by
  have h := discardFirstN_runFrom n xs 0 0 (by simp)
  refine ⟨?_, ?_⟩
  · rw [keepAt_eq]; exact h.1
  · obtain ⟨s, hs⟩ := h.2
    simp only [FilterObj.outcome]
    have : (discardFirstN α A n).init = 0 := rfl
    rw [this, hs]; rfl

/-- C02: with fewer than `2^64` samples the filter forwards exactly all but the first `n`. -/
theorem C02_discardFirstN_drop (α A : Type) (n : UInt64) (xs : List (Msg α A))
    (hlen : xs.length < 2^64) :
    (discardFirstN α A n).issued xs = xs.drop n.toNat := by
  rw [(C02_discardFirstN α A n xs).1, keepAt_eq]
  rw [keepFrom_congr _ (fun i => n.toNat ≤ i) 0 xs]
  · rw [keepFrom_ge]; simp
  · intro i _ hi
    have : (i+1) % 2^64 = i + 1 := Nat.mod_eq_of_lt (by omega)
    rw [this]; omega

/-- An instance of C02. -/
example := C02_discardFirstN_drop Nat Unit 2 [(10,()),(11,()),(12,()),(13,())] (by decide)

example : (discardFirstN Nat Unit 2).issued [(10,()),(11,()),(12,()),(13,())]
    = [(12,()),(13,())] ∧ [(10,()),(11,()),(12,()),(13,())].length < 2^64 := by decide

/-- C02, the excluded case: sample number `2^64` is lost because the counter wraps to 0. -/
theorem C02_discardFirstN_wraps (α A : Type) (n : UInt64) (ys : List (Msg α A)) (z : Msg α A)
    (hlen : ys.length = 2^64 - 1) :
    (discardFirstN α A n).issued (ys ++ [z]) = ys.drop n.toNat := by
  rw [(C02_discardFirstN α A n _).1, keepAt_eq, keepFrom_append, hlen]
  rw [keepFrom_congr _ (fun i => n.toNat ≤ i) 0 ys]
  · rw [keepFrom_ge]; simp [keepFrom]
  · intro i _ hi
    have : (i+1) % 2^64 = i + 1 := Nat.mod_eq_of_lt (by omega)
    rw [this]; omega

/-- An instance: a stream of `2^64` samples. -/
example := C02_discardFirstN_wraps Nat Unit 5 (List.replicate (2^64 - 1) (0, ())) (1, ()) List.length_replicate

/-- Such a stream exists. -/
example : ∃ ys : List (Msg Nat Unit), ys.length = 2^64 - 1 :=
  ⟨List.replicate (2^64 - 1) (0, ()), List.length_replicate⟩

/-! ## C03 Condition -/

/-- C03: `Condition(p)` forwards exactly the messages satisfying `p`, unchanged, in order. -/
theorem C03_condition (α A : Type) (p : α → A → Bool) (xs : List (Msg α A)) :
    (condition α A p).issued xs = xs.filter (fun m => p m.1 m.2) ∧
    (condition α A p).outcome xs = .ok () := by
  have h := condition_runFrom p xs
  have hi : (condition α A p).init = () := rfl
  simp [FilterObj.issued, FilterObj.outcome, hi, h, Except.map]

example : (condition Nat Unit (fun x _ => x % 2 == 0)).issued [(1,()),(2,()),(4,()),(5,())]
    = [(2,()),(4,())] := by decide

/-! ## C04 Conversion, PassThrough, ComponentSplitter -/

/-- C04: `Conversion(f)` emits `f x` with unchanged auxiliary data for every message. -/
theorem C04_conversion (α β A : Type) (f : α → β) (xs : List (Msg α A)) :
    (conversion α β A f).issued xs = xs.map (fun m => (f m.1, m.2)) ∧
    (conversion α β A f).outcome xs = .ok () := by
  have h := conversion_runFrom (A := A) f xs
  have hi : (conversion α β A f).init = () := rfl
  simp [FilterObj.issued, FilterObj.outcome, hi, h, Except.map]

/-- C04: `PassThrough` is the identity on streams. -/
theorem C04_passThrough (α A : Type) (xs : List (Msg α A)) :
    (passThrough α A).issued xs = xs ∧ (passThrough α A).outcome xs = .ok () := by
  have h := passThrough_runFrom (α := α) (A := A) xs
  have hi : (passThrough α A).init = () := rfl
  simp [FilterObj.issued, FilterObj.outcome, hi, h, Except.map]

/-- C04: if every sample has component `k`, `ComponentSplitter(k)` emits that component of every
sample with unchanged auxiliary data: the `i`-th output is component `k` of the `i`-th input. -/
theorem C04_componentSplitter (α A : Type) (k : Nat) (xs : List (Msg (List α) A))
    (h : ∀ m ∈ xs, k < m.1.length) :
    (componentSplitter α A k).outcome xs = .ok () ∧
    ((componentSplitter α A k).issued xs).map (fun m => (some m.1, m.2))
      = xs.map (fun m => (m.1[k]?, m.2)) := by
  have hi : (componentSplitter α A k).init = () := rfl
  simp only [FilterObj.issued, FilterObj.outcome, hi]
  induction xs with
  | nil => exact ⟨rfl, rfl⟩
  | cons x xs ih =>
    have hx := h x (by simp)
    have ih' := ih (fun m hm => h m (by simp [hm]))
    have hs : (componentSplitter α A k).filter () x = .ok (some (x.1[k], x.2), ()) := by
      simp [componentSplitter, hx]
    simp only [FilterObj.runFrom, hs]
    refine ⟨ih'.1, ?_⟩
    simp [ih'.2, hx]

/-- An instance of C04. -/
example := C04_componentSplitter Nat Unit 1 [([1,2],()),([3,4,5],())] (by decide)

example : (componentSplitter Nat Unit 1).issued [([1,2],()),([3,4,5],())] = [(2,()),(4,())] ∧
    ∀ m ∈ [(([1,2] : List Nat),()),([3,4,5],())], 1 < m.1.length := by decide

/-- C04, the excluded case: at the first sample without component `k` the processing stops with
a failed assertion; exactly the components of the samples before it have been forwarded. -/
theorem C04_componentSplitter_missing (α A : Type) (k : Nat) (xs ys : List (Msg (List α) A))
    (m : Msg (List α) A) (h : ∀ m ∈ xs, k < m.1.length) (hm : m.1.length ≤ k) :
    (componentSplitter α A k).outcome (xs ++ m :: ys) = .error .assertion ∧
    ((componentSplitter α A k).issued (xs ++ m :: ys)).map (fun m => (some m.1, m.2))
      = xs.map (fun m => (m.1[k]?, m.2)) := by
  have hi : (componentSplitter α A k).init = () := rfl
  simp only [FilterObj.issued, FilterObj.outcome, hi]
  induction xs with
  | nil =>
    have hs : (componentSplitter α A k).filter () m = .error .assertion := by
      simp [componentSplitter, hm]
    simp [FilterObj.runFrom, hs, Except.map]
  | cons x xs ih =>
    have hx := h x (by simp)
    have ih' := ih (fun m hm => h m (by simp [hm]))
    have hs : (componentSplitter α A k).filter () x = .ok (some (x.1[k], x.2), ()) := by
      simp [componentSplitter, hx]
    simp only [FilterObj.runFrom, List.cons_append, hs]
    exact ⟨ih'.1, by simp [ih'.2, hx]⟩

/-- An instance: the third sample has no component 1. -/
example := C04_componentSplitter_missing Nat Unit 1 [([1,2],()),([3,4,5],())] [([6,7],())] ([8],()) (by decide) (by decide)

/-! ## C05 composition laws -/

/-- C05: filters in series process a stream like one after the other (if the first one does not
fail), for arbitrary filters. -/
theorem C05_series {σ τ X Y Z : Type} (F : FilterObj σ X Y) (G : FilterObj τ Y Z) (xs : List X)
    (hF : F.outcome xs = .ok ()) :
    (F.andThen G).issued xs = G.issued (F.issued xs) := by
  apply andThen_runFrom
  simp only [FilterObj.outcome] at hF
  cases h : (F.runFrom F.init xs).2 with
  | error e => rw [h] at hF; simp [Except.map] at hF
  | ok s => exact ⟨s, rfl⟩

/-- An instance: a component, then thinning. -/
example := C05_series (componentSplitter Nat Unit 1) (takeEveryNth Nat Unit 2) [([1,2],()),([3,4,5],()),([6,7],())] rfl

/-- C05: thinning by `n` and then by `m` keeps exactly every `n*m`-th sample. -/
theorem C05_take_take (α A : Type) (n m : UInt64) (hn : n ≠ 0) (hm : m ≠ 0)
    (xs : List (Msg α A)) :
    ((takeEveryNth α A n).andThen (takeEveryNth α A m)).issued xs
      = keepAt (fun k => n.toNat * m.toNat ∣ k) xs := by
  have hn' : n.toNat ≠ 0 := by
    intro h; exact hn (UInt64.toNat_inj.mp (by simpa using h))
  rw [C05_series _ _ _ (C01_takeEveryNth α A n hn xs).2, (C01_takeEveryNth α A m hm _).1,
    (C01_takeEveryNth α A n hn xs).1, keepAt_eq, keepAt_eq, keepAt_eq,
    keepFrom_dvd_comp n.toNat (by omega) _ xs 0 0 (by omega) (by omega)]
  apply keepFrom_congr
  intro i _ _
  constructor
  · rintro ⟨⟨q, rfl⟩, h⟩
    rw [Nat.mul_div_cancel_left _ (by omega)] at h
    exact Nat.mul_dvd_mul_left _ h
  · rintro ⟨q, rfl⟩
    refine ⟨⟨m.toNat * q, by rw [Nat.mul_assoc]⟩, ?_⟩
    rw [Nat.mul_assoc, Nat.mul_div_cancel_left _ (by omega)]
    exact ⟨q, rfl⟩

/-- An instance of C05. -/
example := C05_take_take Nat Unit 2 3 (by decide) (by decide) ((List.range 14).map (fun k => (k, ())))

/-- C05: ... and so equals a single `TakeEveryNth(n*m)` if the product fits into 64 bits. -/
theorem C05_take_take_single (α A : Type) (n m : UInt64) (hn : n ≠ 0) (hm : m ≠ 0)
    (hfit : n.toNat * m.toNat < 2^64) (xs : List (Msg α A)) :
    ((takeEveryNth α A n).andThen (takeEveryNth α A m)).issued xs
      = (takeEveryNth α A (n * m)).issued xs := by
  have hmul : (n * m).toNat = n.toNat * m.toNat := by
    rw [UInt64.toNat_mul, Nat.mod_eq_of_lt hfit]
  have hne : n * m ≠ 0 := by
    intro h
    have : (n*m).toNat = 0 := by rw [h]; rfl
    rw [hmul, Nat.mul_eq_zero] at this
    rcases this with h | h
    · exact hn (UInt64.toNat_inj.mp (by simpa using h))
    · exact hm (UInt64.toNat_inj.mp (by simpa using h))
  rw [C05_take_take α A n m hn hm, (C01_takeEveryNth α A (n*m) hne xs).1]
  rw [keepAt_eq, keepAt_eq]
  apply keepFrom_congr
  intro i _ _
  rw [hmul]

/-- An instance of C05. -/
example := C05_take_take_single Nat Unit 2 3 (by decide) (by decide) (by decide) ((List.range 14).map (fun k => (k, ())))

example : (2 : UInt64) ≠ 0 ∧ (3 : UInt64) ≠ 0 ∧ (2 : UInt64).toNat * (3 : UInt64).toNat < 2^64 := by
  decide

/-- C05: two burn-in phases add up. -/
theorem C05_discard_discard (α A : Type) (n m : UInt64) (hfit : n.toNat + m.toNat < 2^64)
    (xs : List (Msg α A)) (hlen : xs.length < 2^64) :
    ((discardFirstN α A n).andThen (discardFirstN α A m)).issued xs
      = (discardFirstN α A (n + m)).issued xs := by
  have hadd : (n + m).toNat = n.toNat + m.toNat := by
    rw [UInt64.toNat_add, Nat.mod_eq_of_lt hfit]
  rw [C05_series _ _ _ (C02_discardFirstN α A n xs).2, C02_discardFirstN_drop α A n xs hlen,
    C02_discardFirstN_drop α A m _ (by rw [List.length_drop]; omega),
    C02_discardFirstN_drop α A (n+m) xs hlen, hadd, List.drop_drop]

/-- An instance of C05. -/
example := C05_discard_discard Nat Unit 2 3 (by decide) ((List.range 14).map (fun k => (k, ()))) (by decide)

open Classical in
/-- C05: a burn-in of `n` followed by thinning by `m` forwards the samples `n, n+m, n+2m, ...`. -/
theorem C05_discard_take (α A : Type) (n m : UInt64) (hm : m ≠ 0)
    (xs : List (Msg α A)) (hlen : xs.length < 2^64) :
    ((discardFirstN α A n).andThen (takeEveryNth α A m)).issued xs
      = keepAt (fun k => ∃ j, k = n.toNat + j * m.toNat) xs := by
  rw [C05_series _ _ _ (C02_discardFirstN α A n xs).2, C02_discardFirstN_drop α A n xs hlen,
    (C01_takeEveryNth α A m hm _).1, keepAt_eq, keepAt_eq]
  have := keepFrom_drop (fun i => m.toNat ∣ i) n.toNat xs 0 0
  rw [Nat.sub_zero] at this
  rw [this]
  apply keepFrom_congr
  intro i _ _
  simp only [Nat.sub_zero, Nat.add_zero]
  constructor
  · rintro ⟨h, q, hq⟩
    exact ⟨q, by rw [Nat.mul_comm]; omega⟩
  · rintro ⟨j, rfl⟩
    exact ⟨by omega, ⟨j, by rw [Nat.mul_comm]; omega⟩⟩

/-- An instance of C05. -/
example := C05_discard_take Nat Unit 2 3 (by decide) ((List.range 14).map (fun k => (k, ()))) (by decide)

/-- C05: conditions commute, and two conditions are one conjunction. -/
theorem C05_condition_condition (α A : Type) (p q : α → A → Bool) (xs : List (Msg α A)) :
    ((condition α A p).andThen (condition α A q)).issued xs
      = ((condition α A q).andThen (condition α A p)).issued xs ∧
    ((condition α A p).andThen (condition α A q)).issued xs
      = (condition α A (fun x a => p x a && q x a)).issued xs := by
  rw [C05_series _ _ _ (C03_condition α A p xs).2, C05_series _ _ _ (C03_condition α A q xs).2,
    (C03_condition α A q _).1, (C03_condition α A p _).1, (C03_condition α A p _).1,
    (C03_condition α A q _).1, (C03_condition α A _ _).1, List.filter_filter, List.filter_filter]
  refine ⟨?_, ?_⟩
  · congr 1; funext m; exact Bool.and_comm _ _
  · congr 1; funext m; exact Bool.and_comm _ _

example : ((discardFirstN Nat Unit 1).andThen (takeEveryNth Nat Unit 2)).issued
    [(0,()),(1,()),(2,()),(3,()),(4,()),(5,())] = [(1,()),(3,()),(5,())] := by decide

end SampleFlow
