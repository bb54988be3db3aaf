import Verif.Spec.DEChain
import Verif.Proofs.LargeNumbers
import Verif.Proofs.DESafe

/-! A run of the differential evaluation sampler as a function of the random decisions, and its distribution. -/

set_option linter.unusedSimpArgs false

namespace SampleFlow

open Spec MeasureTheory Ergodic

variable {S Ω : Type} [Inhabited S] (max : ℝ) (π : S → ℝ) (q : S → S → ℝ) (pick : S → Ω → S) (cross : S → S → S → S)

/-- what chain `c` proposes from, given the two random integers -/
def baseOf (X : List S) (c a0 b0 : Nat) : S :=
  cross (X.getD c default) (X.getD (partnerA c a0) default) (X.getD (partnerB c (partnerA c a0) b0) default)

/-- the decision -/
noncomputable def deAcc (base x z : S) (u : ℝ) : Bool :=
  XR.leb (.fin u) (XR.div (XR.exp ((logOf (π z)).add (logOf (π x)).neg)) (XR.div (.fin (q base z)) (.fin (q z base))))

/-- the sample of chain after a step from `x` with the proposal made from `base` -/
noncomputable def deStep (base x : S) (ω : Ω) (u : ℝ) : S :=
  if deAcc π q base x (pick base ω) u then pick base ω else x

/-- the sample of chain `c` after the step -/
noncomputable def newSample (now : Bool) (X : List S) (c : Nat) (e : DEChance Ω) : S :=
  deStep π q pick (if now then baseOf cross X c ⌊e.v1 * ((X.length - 2 : Nat) + 1)⌋₊ ⌊e.v2 * ((X.length - 3 : Nat) + 1)⌋₊ else X.getD c default)
    (X.getD c default) e.ω e.u

/-- a generation -/
noncomputable def newsFrom (now : Bool) (X : List S) : Nat → List (DEChance Ω) → List S
  | _, [] => []
  | c, e :: es => newSample π q pick cross now X c e :: newsFrom now X (c + 1) es

omit [Inhabited S] in
theorem getD_eq {d : S} {X : List S} {i : Nat} (h : i < X.length) : X[i]? = some (X.getD i d) := by
  rw [List.getElem?_eq_getElem h, List.getD_eq_getElem?_getD, List.getElem?_eq_getElem h]; rfl

/-- random numbers in [0,1) -/
def GoodChance (e : DEChance Ω) : Prop := e.v1 ∈ Set.Ico (0:ℝ) 1 ∧ e.v2 ∈ Set.Ico (0:ℝ) 1

theorem floor_le {v : ℝ} (h : v ∈ Set.Ico (0:ℝ) 1) (k : Nat) : ⌊v * (k + 1)⌋₊ ≤ k := by
  have : ⌊v * (k + 1)⌋₊ < k + 1 := by
    rw [Nat.floor_lt (mul_nonneg h.1 (by positivity))]
    push_cast
    have : (0:ℝ) < k + 1 := by positivity
    nlinarith [h.2]
  omega

theorem deMakeTask_run (gap gen : Nat) (X : List S) (hn : 3 ≤ X.length) (c : Nat) (hc : c < X.length) (e : DEChance Ω) (he : GoodChance e) (rest : List (DEChance Ω)) :
    ∃ tr, deMakeTask (deWorld π q pick cross) gap gen X c (e :: rest) =
      (tr, .ok ⟨pick (if crossoverNow gap gen then baseOf cross X c ⌊e.v1 * ((X.length - 2 : Nat) + 1)⌋₊ ⌊e.v2 * ((X.length - 3 : Nat) + 1)⌋₊ else X.getD c default) e.ω,
        XR.div (.fin (q (if crossoverNow gap gen then baseOf cross X c ⌊e.v1 * ((X.length - 2 : Nat) + 1)⌋₊ ⌊e.v2 * ((X.length - 3 : Nat) + 1)⌋₊ else X.getD c default)
            (pick (if crossoverNow gap gen then baseOf cross X c ⌊e.v1 * ((X.length - 2 : Nat) + 1)⌋₊ ⌊e.v2 * ((X.length - 3 : Nat) + 1)⌋₊ else X.getD c default) e.ω)))
          (.fin (q (pick (if crossoverNow gap gen then baseOf cross X c ⌊e.v1 * ((X.length - 2 : Nat) + 1)⌋₊ ⌊e.v2 * ((X.length - 3 : Nat) + 1)⌋₊ else X.getD c default) e.ω)
            (if crossoverNow gap gen then baseOf cross X c ⌊e.v1 * ((X.length - 2 : Nat) + 1)⌋₊ ⌊e.v2 * ((X.length - 3 : Nat) + 1)⌋₊ else X.getD c default))),
        .fin e.u⟩, rest) ∧ issuedOf tr = [] := by
  unfold deMakeTask deTrial
  cases hcr : crossoverNow gap gen with
  | false =>
    simp only [Bool.false_eq_true, if_false]
    have e0 : (atIndex X c : Prog _ S XR (Stop Empty) S) (e :: rest) = ([], .ok (X.getD c default), e :: rest) := atIndex_ok (getD_eq hc) _
    simp only [bind, Prog.bind, e0]
    exact ⟨_, rfl, rfl⟩
  | true =>
    simp only [if_true]
    have ha := partnerA_lt (chain := c) hn (floor_le he.1 (X.length - 2))
    have hb := partnerB_lt (chain := c) (a := partnerA c ⌊e.v1 * ((X.length - 2 : Nat) + 1)⌋₊) hn (floor_le he.2 (X.length - 3))
    have e1 : drawInt (deWorld π q pick cross) (X.length - 2) (e :: rest) = ([.drewInt (X.length - 2) ⌊e.v1 * ((X.length - 2 : Nat) + 1)⌋₊],
      .ok ⌊e.v1 * ((X.length - 2 : Nat) + 1)⌋₊, { e with v1 := e.v2 } :: rest) := rfl
    have e2 : (atIndex X (partnerA c ⌊e.v1 * ((X.length - 2 : Nat) + 1)⌋₊) : Prog _ S XR (Stop Empty) S) ({ e with v1 := e.v2 } :: rest) = ([], .ok _, { e with v1 := e.v2 } :: rest) :=
      atIndex_ok (getD_eq (d := default) ha) _
    have e3 : drawInt (deWorld π q pick cross) (X.length - 3) ({ e with v1 := e.v2 } :: rest) = ([.drewInt (X.length - 3) ⌊e.v2 * ((X.length - 3 : Nat) + 1)⌋₊],
      .ok ⌊e.v2 * ((X.length - 3 : Nat) + 1)⌋₊, { e with v1 := e.v2 } :: rest) := rfl
    have e4 : (atIndex X (partnerB c (partnerA c ⌊e.v1 * ((X.length - 2 : Nat) + 1)⌋₊) ⌊e.v2 * ((X.length - 3 : Nat) + 1)⌋₊) : Prog _ S XR (Stop Empty) S) ({ e with v1 := e.v2 } :: rest) =
      ([], .ok _, { e with v1 := e.v2 } :: rest) := atIndex_ok (getD_eq (d := default) hb) _
    have e5 : (atIndex X c : Prog _ S XR (Stop Empty) S) ({ e with v1 := e.v2 } :: rest) = ([], .ok (X.getD c default), { e with v1 := e.v2 } :: rest) := atIndex_ok (getD_eq hc) _
    simp only [bind, Prog.bind, e1, e2, e3, e4, e5]
    exact ⟨_, rfl, rfl⟩

theorem deCreate_run (gap N gen : Nat) (X : List S) (hn : 3 ≤ X.length) (hN : gen * X.length + X.length ≤ N) (rest : List (DEChance Ω)) :
    ∀ (es : List (DEChance Ω)) (pre : List S), pre.length + es.length = X.length → (∀ e ∈ es, GoodChance e) →
    ∃ tr res, @deCreate _ S XR Empty (idealOps max) (deWorld π q pick cross) gap N gen X.length es.length pre.length
        ⟨X, pre ++ X.drop pre.length, (pre ++ X.drop pre.length).map (fun x => logOf (π x))⟩ (es ++ rest) =
      (tr, .ok (res, ⟨X, pre ++ newsFrom π q pick cross (crossoverNow gap gen) X pre.length es,
        (pre ++ newsFrom π q pick cross (crossoverNow gap gen) X pre.length es).map (fun x => logOf (π x))⟩), rest) ∧
      issuedOf tr = [] ∧ res.length = es.length ∧ ∀ r ∈ res, ∃ acc, r = .ok acc := by
  letI := idealOps max
  intro es
  induction es with
  | nil =>
    intro pre hp _
    refine ⟨[], [], ?_, rfl, rfl, by simp⟩
    have : X.drop pre.length = [] := List.drop_eq_nil_of_le (by simpa using hp.ge)
    simp [deCreate, this, newsFrom, Prog.pure_run]
  | cons e es ih =>
    intro pre hp hg
    have hc : pre.length < X.length := by simp at hp; omega
    obtain ⟨tr1, h1, i1⟩ := deMakeTask_run π q pick cross gap gen X hn pre.length hc e (hg e (by simp)) (es ++ rest)
    have hX : X.drop pre.length = X.getD pre.length default :: X.drop (pre.length + 1) := by
      rw [List.drop_eq_getElem_cons hc, List.getD_eq_getElem?_getD, List.getElem?_eq_getElem hc]; rfl
    rw [show (e :: es).length = es.length + 1 from rfl]
    unfold deCreate
    rw [if_neg (by omega)]
    show ∃ tr res, (deMakeTask (deWorld π q pick cross) gap gen X pre.length >>= _) (e :: (es ++ rest)) = _ ∧ _
    obtain ⟨b, hb⟩ : ∃ b, b = (if crossoverNow gap gen then baseOf cross X pre.length ⌊e.v1 * ((X.length - 2 : Nat) + 1)⌋₊ ⌊e.v2 * ((X.length - 3 : Nat) + 1)⌋₊ else X.getD pre.length default) := ⟨_, rfl⟩
    rw [← hb] at h1
    have hnew : newSample π q pick cross (crossoverNow gap gen) X pre.length e = deStep π q pick b (X.getD pre.length default) e.ω e.u := by
      unfold newSample; rw [← hb]
    have h2 : ∃ tr2 acc, deRunCaptured (E := Empty) (deWorld π q pick cross) pre.length
        ⟨pick b e.ω, XR.div (.fin (q b (pick b e.ω))) (.fin (q (pick b e.ω) b)), .fin e.u⟩
        ⟨X, pre ++ X.drop pre.length, (pre ++ X.drop pre.length).map (fun x => logOf (π x))⟩ (es ++ rest) =
        (tr2, .ok (.ok acc, ⟨X, (pre ++ [deStep π q pick b (X.getD pre.length default) e.ω e.u]) ++ X.drop (pre.length + 1),
          ((pre ++ [deStep π q pick b (X.getD pre.length default) e.ω e.u]) ++ X.drop (pre.length + 1)).map (fun x => logOf (π x))⟩), es ++ rest) ∧ issuedOf tr2 = [] := by
      have l1 : callLogLikelihood (deWorld π q pick cross) (pick b e.ω) (es ++ rest) = ([.logLikelihood (pick b e.ω) (logOf (π (pick b e.ω)))], .ok (logOf (π (pick b e.ω))), es ++ rest) := rfl
      have l2 : (atIndex ((pre ++ X.drop pre.length).map (fun x => logOf (π x))) pre.length : Prog _ S XR (Stop Empty) XR) (es ++ rest) =
          ([], .ok (logOf (π (X.getD pre.length default))), es ++ rest) := by
        refine atIndex_ok ?_ _
        rw [List.getElem?_map, hX]; simp
      have l3 : (atIndex X pre.length : Prog _ S XR (Stop Empty) S) (es ++ rest) = ([], .ok (X.getD pre.length default), es ++ rest) := atIndex_ok (getD_eq hc) _
      have hdec : deAccept (⟨pick b e.ω, XR.div (.fin (q b (pick b e.ω))) (.fin (q (pick b e.ω) b)), .fin e.u⟩ : DETask S XR) (logOf (π (pick b e.ω))) (logOf (π (X.getD pre.length default))) =
          deAcc π q b (X.getD pre.length default) (pick b e.ω) e.u := rfl
      unfold deRunCaptured deRunTask
      cases ha : deAcc π q b (X.getD pre.length default) (pick b e.ω) e.u with
      | true =>
        refine ⟨[.logLikelihood (pick b e.ω) (logOf (π (pick b e.ω)))], true, ?_, rfl⟩
        simp only [bind, Prog.bind, l1, l2, hdec, ha, if_true, Prog.pure_run, deStep, List.append_nil]
        rw [hX]
        simp [List.set_append]
      | false =>
        refine ⟨[.logLikelihood (pick b e.ω) (logOf (π (pick b e.ω)))], false, ?_, rfl⟩
        simp only [bind, Prog.bind, l1, l2, l3, hdec, ha, Bool.false_eq_true, if_false, Prog.pure_run, deStep, List.append_nil]
        rw [hX]
        simp [List.set_append]
    obtain ⟨tr2, acc, h2, i2⟩ := h2
    have hp' : (pre ++ [deStep π q pick b (X.getD pre.length default) e.ω e.u]).length = pre.length + 1 := by simp
    obtain ⟨tr3, res, h3, i3, l3, a3⟩ := ih (pre ++ [deStep π q pick b (X.getD pre.length default) e.ω e.u]) (by rw [hp']; simp at hp; omega) (fun e' he' => hg e' (by simp [he']))
    rw [hp'] at h3
    rw [Prog.bind_ok h1, Prog.bind_ok h2, Prog.bind_ok h3]
    refine ⟨tr1 ++ (tr2 ++ (tr3 ++ [])), .ok acc :: res, ?_, ?_, by simp [l3], ?_⟩
    · simp only [Prog.pure_run, newsFrom, hnew, List.append_assoc, List.singleton_append]
    · simp only [issuedOf, List.filterMap_append] at i1 i2 i3 ⊢
      rw [i1, i2, i3]; rfl
    · intro r hr
      rcases List.mem_cons.mp hr with rfl | hr
      · exact ⟨acc, rfl⟩
      · exact a3 r hr

omit [Inhabited S] in
theorem newsFrom_length [Inhabited S] (now : Bool) (X : List S) (c : Nat) (es : List (DEChance Ω)) :
    (newsFrom π q pick cross now X c es).length = es.length := by
  induction es generalizing c with
  | nil => rfl
  | cons e es ih => simp [newsFrom, ih]

/-- the samples of a generation together with their chain number, as a consumer sees them -/
def numbered (c : Nat) : List S → List (S × Nat)
  | [] => []
  | x :: xs => (x, c) :: numbered (c + 1) xs

/-- sample and chain number of a message -/
def tagged (m : S × Aux XR) : Option (S × Nat) :=
  match m.2.lookup "chain number" with
  | some (.index k) => some (m.1, k)
  | _ => none

theorem deIssue_run (N gen n : Nat) (hN : gen * n + n ≤ N) (results : List (Except Empty Bool)) (hr : ∀ r ∈ results, ∃ acc, r = .ok acc) (hl : results.length = n)
    (X Y : List S) (hY : Y.length = n) (w : List (DEChance Ω)) : ∀ left c, c + left = n →
    ∃ tr, deIssue (deWorld π q pick cross) N gen n results ⟨X, Y, Y.map (fun x => logOf (π x))⟩ left c w = (tr, .ok (), w) ∧
      (issuedOf tr).filterMap tagged = numbered c (Y.drop c) := by
  intro left
  induction left with
  | zero =>
    intro c hc
    refine ⟨[], rfl, ?_⟩
    rw [List.drop_eq_nil_of_le (by omega)]; rfl
  | succ left ih =>
    intro c hc
    unfold deIssue
    rw [if_neg (by omega)]
    obtain ⟨acc, ha⟩ := hr (results[c]'(by omega)) (List.getElem_mem _)
    have e1 : (atIndex results c : Prog _ S XR (Stop Empty) _) w = ([], .ok (.ok acc), w) := atIndex_ok (by rw [List.getElem?_eq_getElem (by omega), ha]) _
    have e2 : (deGet (.ok acc) : Prog _ S XR (Stop Empty) Bool) w = ([], .ok acc, w) := rfl
    have e3 : (atIndex Y c : Prog _ S XR (Stop Empty) _) w = ([], .ok (Y[c]'(by omega)), w) := atIndex_ok (List.getElem?_eq_getElem (by omega)) _
    have e4 : (atIndex (Y.map (fun x => logOf (π x))) c : Prog _ S XR (Stop Empty) _) w = ([], .ok (logOf (π (Y[c]'(by omega)))), w) :=
      atIndex_ok (by rw [List.getElem?_map, List.getElem?_eq_getElem (by omega)]; rfl) _
    obtain ⟨tr, h, i⟩ := ih (c + 1) (by omega)
    have e5 : callIssue (deWorld π q pick cross) (Y[c]'(by omega)) (deAux (logOf (π (Y[c]'(by omega)))) (!acc) c) w =
      ([.issued (Y[c]'(by omega)) (deAux (logOf (π (Y[c]'(by omega)))) (!acc) c)], .ok (), w) := rfl
    rw [Prog.bind_ok e1, Prog.bind_ok e2, Prog.bind_ok e3, Prog.bind_ok e4, Prog.bind_ok e5, h]
    refine ⟨_, rfl, ?_⟩
    rw [List.drop_eq_getElem_cons (by omega), numbered, ← i]
    simp only [issuedOf, List.nil_append, List.singleton_append, List.filterMap_cons]
    rfl

/-- the generations of a run -/
noncomputable def gensFrom (gap : Nat) : Nat → Nat → List S → List (DEChance Ω) → List (List S)
  | _, 0, _, _ => []
  | gen, G + 1, X, script =>
    newsFrom π q pick cross (crossoverNow gap gen) X 0 (script.take X.length) ::
      gensFrom gap (gen + 1) G (newsFrom π q pick cross (crossoverNow gap gen) X 0 (script.take X.length)) (script.drop X.length)

theorem deLoop_run (gap n : Nat) (hn : 3 ≤ n) (G : Nat) : ∀ (gen fuel : Nat) (X : List S) (script : List (DEChance Ω)), X.length = n → (gen + G) * n ≤ gen + fuel →
    script.length = G * n → (∀ e ∈ script, GoodChance e) →
    ∃ tr, @deLoop _ S XR Empty (idealOps max) (deWorld π q pick cross) gap ((gen + G) * n) n fuel gen ⟨X, X, X.map (fun x => logOf (π x))⟩ script = (tr, .ok (), []) ∧
      (issuedOf tr).filterMap tagged = (gensFrom π q pick cross gap gen G X script).flatMap (numbered 0) := by
  letI := idealOps max
  induction G with
  | zero =>
    intro gen fuel X script hX hf hs hg
    have : script = [] := List.length_eq_zero_iff.mp (by simpa using hs)
    subst this
    cases fuel with
    | zero => exact ⟨[], rfl, rfl⟩
    | succ fuel =>
      unfold deLoop
      rw [if_neg (by simp)]
      exact ⟨[], rfl, rfl⟩
  | succ G ih =>
    intro gen fuel X script hX hf hs hg
    have hN : gen * n + n ≤ (gen + (G + 1)) * n := by nlinarith
    cases fuel with
    | zero => nlinarith
    | succ fuel =>
      have hlt : (script.take n).length = n := by rw [List.length_take, hs]; have : n ≤ (G + 1) * n := by nlinarith
                                                  omega
      unfold deLoop
      rw [if_pos (by nlinarith)]
      obtain ⟨tr1, res, h1, i1, l1, a1⟩ := deCreate_run max π q pick cross gap ((gen + (G + 1)) * n) gen X (by omega) (by rw [hX]; exact hN) (script.drop n) (script.take n) []
        (by rw [hlt, hX]; simp) (fun e he => hg e (List.mem_of_mem_take he))
      simp only [List.nil_append, List.length_nil, List.drop_zero, hlt, List.take_append_drop, hX] at h1
      have hY := newsFrom_length π q pick cross (crossoverNow gap gen) X 0 (script.take n)
      obtain ⟨tr2, h2, i2⟩ := deIssue_run π q pick cross ((gen + (G + 1)) * n) gen n hN res a1 (by rw [l1, hlt]) X
        (newsFrom π q pick cross (crossoverNow gap gen) X 0 (script.take n)) (by rw [hY, hlt]) (script.drop n) n 0 (by omega)
      have e1 : deGeneration (deWorld π q pick cross) gap ((gen + (G + 1)) * n) n gen ⟨X, X, X.map (fun x => logOf (π x))⟩ script =
          (tr1 ++ (tr2 ++ []), .ok ⟨newsFrom π q pick cross (crossoverNow gap gen) X 0 (script.take n), newsFrom π q pick cross (crossoverNow gap gen) X 0 (script.take n),
            (newsFrom π q pick cross (crossoverNow gap gen) X 0 (script.take n)).map (fun x => logOf (π x))⟩, script.drop n) := by
        unfold deGeneration
        rw [Prog.bind_ok h1]
        simp only [bind, Prog.bind, h2, Prog.pure_run]
      rw [Prog.bind_ok e1]
      obtain ⟨tr3, h3, i3⟩ := ih (gen + 1) fuel (newsFrom π q pick cross (crossoverNow gap gen) X 0 (script.take n)) (script.drop n) (by rw [hY, hlt])
        (by rw [show gen + 1 + G = gen + (G + 1) by omega]; omega) (by rw [List.length_drop, hs]; rw [Nat.add_mul]; omega) (fun e he => hg e (List.mem_of_mem_drop he))
      rw [show gen + 1 + G = gen + (G + 1) by omega] at h3
      rw [h3]
      refine ⟨_, rfl, ?_⟩
      simp only [issuedOf, List.filterMap_append, List.append_nil] at i1 i2 i3 ⊢
      rw [i1, i2, i3]
      rw [gensFrom, hX, List.flatMap_cons, List.drop_zero]
      rfl

theorem deInitial_run (w : List (DEChance Ω)) (X : List S) : ∃ tr, deInitial (deWorld π q pick cross) X w = (tr, .ok (X.map (fun x => logOf (π x))), w) ∧ issuedOf tr = [] := by
  induction X with
  | nil => exact ⟨[], rfl, rfl⟩
  | cons x X ih =>
    obtain ⟨tr, h, i⟩ := ih
    unfold deInitial
    have e1 : callLogLikelihood (deWorld π q pick cross) x w = ([.logLikelihood x (logOf (π x))], .ok (logOf (π x)), w) := rfl
    simp only [bind, Prog.bind, e1, h, Prog.pure_run]
    refine ⟨_, rfl, ?_⟩
    simp only [issuedOf, List.filterMap_append, List.append_nil] at i ⊢
    rw [i]; rfl

theorem deSample_run (gap G : Nat) (X : List S) (hn : 3 ≤ X.length) (script : List (DEChance Ω)) (hs : script.length = G * X.length) (hg : ∀ e ∈ script, GoodChance e) :
    (issuedOf (@deSample _ S XR Empty (idealOps max) (deWorld π q pick cross) X gap script.length script).1).filterMap tagged =
      (gensFrom π q pick cross gap 0 G X script).flatMap (numbered 0) := by
  letI := idealOps max
  unfold deSample
  rw [if_pos hn]
  obtain ⟨tr1, h1, i1⟩ := deInitial_run π q pick cross script X
  obtain ⟨tr2, h2, i2⟩ := deLoop_run max π q pick cross gap X.length hn G 0 script.length X script rfl (by rw [hs]; simp) hs hg
  rw [Nat.zero_add, ← hs] at h2
  unfold Prog.withScopeExit
  simp only [bind, Prog.bind, h1, h2]
  simp only [issuedOf, List.filterMap_append, scopeExitFlush] at i1 i2 ⊢
  rw [i1, i2]
  simp

omit [Inhabited S] in
theorem ofChain_tagged (c : Nat) (msgs : List (S × Aux XR)) :
    ofChain c msgs = (msgs.filterMap tagged).filterMap (fun p => if p.2 = c then some p.1 else none) := by
  unfold ofChain
  rw [List.filterMap_filterMap]
  congr 1
  funext m
  unfold tagged
  split <;> simp_all

omit [Inhabited S] in
theorem numbered_chain (c : Nat) (Y : List S) : ∀ k, (numbered k Y).filterMap (fun p => if p.2 = c then some p.1 else none) = if k ≤ c then (Y[c - k]?).toList else [] := by
  induction Y with
  | nil => intro k; simp [numbered]
  | cons y Y ih =>
    intro k
    rw [numbered, List.filterMap_cons, ih]
    by_cases h : k = c
    · subst h; simp
    · simp only [h, if_false]
      by_cases h2 : k ≤ c
      · rw [if_pos h2, if_pos (by omega), show c - k = (c - (k + 1)) + 1 by omega, List.getElem?_cons_succ]
      · rw [if_neg h2, if_neg (by omega)]

omit [Inhabited S] in
theorem flatMap_toList (gens : List (List S)) [Inhabited S] (c : Nat) (h : ∀ Y ∈ gens, c < Y.length) :
    (gens.flatMap (numbered 0)).filterMap (fun p => if p.2 = c then some p.1 else none) = gens.map (fun Y => Y.getD c default) := by
  induction gens with
  | nil => rfl
  | cons Y gens ih =>
    rw [List.flatMap_cons, List.filterMap_append, ih (fun Z hZ => h Z (by simp [hZ])), numbered_chain, List.map_cons]
    rw [if_pos (Nat.zero_le _), Nat.sub_zero, getD_eq (d := default) (h Y (by simp))]
    rfl

theorem gensFrom_length (gap G : Nat) : ∀ (gen : Nat) (X : List S) (script : List (DEChance Ω)), script.length = G * X.length →
    (gensFrom π q pick cross gap gen G X script).length = G ∧ ∀ Y ∈ gensFrom π q pick cross gap gen G X script, Y.length = X.length := by
  induction G with
  | zero => intro gen X script h; simp [gensFrom]
  | succ G ih =>
    intro gen X script h
    have hl : (newsFrom π q pick cross (crossoverNow gap gen) X 0 (script.take X.length)).length = X.length := by
      rw [newsFrom_length, List.length_take, h, Nat.add_mul]; omega
    have := ih (gen + 1) (newsFrom π q pick cross (crossoverNow gap gen) X 0 (script.take X.length)) (script.drop X.length)
      (by rw [hl, List.length_drop, h, Nat.add_mul]; omega)
    rw [gensFrom]
    refine ⟨by rw [List.length_cons, this.1], ?_⟩
    intro Y hY
    rcases List.mem_cons.mp hY with rfl | hY
    · exact hl
    · rw [this.2 Y hY, hl]

variable [Fintype Ω] (weight : Ω → ℝ)

/-- the samples of a chain in a run -/
theorem deMessages_chain (gap G : Nat) (X : List S) (hn : 3 ≤ X.length) (script : List (DEChance Ω)) (hs : script.length = G * X.length) (hg : ∀ e ∈ script, GoodChance e)
    (c : Nat) (hc : c < X.length) :
    ofChain c (deMessages max π weight pick cross X gap script) =
      (gensFrom π (proposalProb weight pick) pick cross gap 0 G X script).map (fun Y => Y.getD c default) := by
  unfold deMessages
  rw [ofChain_tagged, deSample_run max π _ pick cross gap G X hn script hs hg, flatMap_toList]
  intro Y hY
  rw [(gensFrom_length π _ pick cross gap G 0 X script hs).2 Y hY]
  exact hc

end SampleFlow
