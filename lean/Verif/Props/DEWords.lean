import Verif.Model.DEWords
import Verif.Model.Toy
import Verif.Proofs.Flush
import Verif.Proofs.DESafe
import Verif.Props.DifferentialEvaluation

/-!
# Property C101: the counters of DifferentialEvaluationMetropolisHastings as machine words
-/

universe u

namespace SampleFlow

open Spec

variable {W : Type u} {S D E : Type} [FloatOps D] {b : Nat}

namespace DEWords

/-- Within one generation, the machine words decide as unlimited integers would with the number of samples `N`. -/
def Same (n g c : BitVec b) (N : Nat) : Prop :=
  ∀ chain, chain < c.toNat → (deEnough n g c chain = true ↔ g.toNat * c.toNat + chain ≥ N)

theorem create_eq (env : World W S D (Stop E)) (gap : Nat) (n g c : BitVec b) (N : Nat) (h : Same n g c N) (left : Nat) :
    ∀ (chain : Nat) (st : DEState S D), chain + left ≤ c.toNat →
      deCreateW env gap n g c left chain st = deCreate env gap N g.toNat c.toNat left chain st := by
  induction left with
  | zero => intro chain st _; rfl
  | succ left ih =>
    intro chain st hl
    unfold deCreateW deCreate
    have hs := h chain (by omega)
    by_cases he : deEnough n g c chain = true
    · rw [if_pos he, if_pos (hs.mp he)]
    · rw [if_neg he, if_neg (fun h' => he (hs.mpr h'))]
      have : ∀ st', deCreateW env gap n g c left (chain + 1) st' = deCreate env gap N g.toNat c.toNat left (chain + 1) st' :=
        fun st' => ih (chain + 1) st' (by omega)
      simp only [this]

omit [FloatOps D] in
theorem issue_eq (env : World W S D (Stop E)) (n g c : BitVec b) (N : Nat) (h : Same n g c N) (results : List (Except E Bool))
    (st : DEState S D) (left : Nat) : ∀ chain : Nat, chain + left ≤ c.toNat →
      deIssueW env n g c results st left chain = deIssue env N g.toNat c.toNat results st left chain := by
  induction left with
  | zero => intro chain _; rfl
  | succ left ih =>
    intro chain hl
    unfold deIssueW deIssue
    have hs := h chain (by omega)
    by_cases he : deEnough n g c chain = true
    · rw [if_pos he, if_pos (hs.mp he)]
    · rw [if_neg he, if_neg (fun h' => he (hs.mpr h')), ih (chain + 1) (by omega)]

theorem generation_eq (env : World W S D (Stop E)) (gap : Nat) (n g c : BitVec b) (N : Nat) (h : Same n g c N) (st : DEState S D) :
    deGenerationW env gap n c g st = deGeneration env gap N c.toNat g.toNat st := by
  unfold deGenerationW deGeneration
  rw [create_eq env gap n g c N h _ 0 st (by omega)]
  have : ∀ rs : List (Except E Bool) × DEState S D, deIssueW env n g c rs.1 rs.2 c.toNat 0 = deIssue env N g.toNat c.toNat rs.1 rs.2 c.toNat 0 :=
    fun rs => issue_eq env n g c N h rs.1 rs.2 _ 0 (by omega)
  simp only [this]

theorem same_of_small (n g c : BitVec b) (h : n.toNat + c.toNat ≤ 2 ^ b) (hg : g.toNat * c.toNat < n.toNat) : Same n g c n.toNat := by
  intro chain hc
  unfold deEnough
  have h1 : (g * c + BitVec.ofNat b chain).toNat = g.toNat * c.toNat + chain := by
    rw [BitVec.toNat_add, BitVec.toNat_mul, BitVec.toNat_ofNat, Nat.mod_eq_of_lt (a := g.toNat * c.toNat) (by omega),
      Nat.mod_eq_of_lt (a := chain) (by omega), Nat.mod_eq_of_lt (by omega)]
  rw [decide_eq_true_iff, ge_iff_le, BitVec.le_def, h1]

theorem loop_eq (env : World W S D (Stop E)) (gap : Nat) (n c : BitVec b) (hc : 0 < c.toNat) (h : n.toNat + c.toNat ≤ 2 ^ b) (fuel : Nat) :
    ∀ (fuel' : Nat) (g : BitVec b) (st : DEState S D), g.toNat * c.toNat < n.toNat + c.toNat →
      n.toNat - g.toNat < fuel → n.toNat - g.toNat ≤ fuel' →
      deLoopW env gap n c fuel g st = (deLoop env gap n.toNat c.toNat fuel' g.toNat st >>= fun _ => pure true) := by
  induction fuel with
  | zero => intro fuel' g st _ h1 _; omega
  | succ fuel ih =>
    intro fuel' g st hg h1 h2
    have hlt : (g * c < n) ↔ g.toNat * c.toNat < n.toNat := by
      rw [BitVec.lt_def, BitVec.toNat_mul, Nat.mod_eq_of_lt (by omega)]
    unfold deLoopW
    by_cases hc' : g.toNat * c.toNat < n.toNat
    · rw [if_pos (hlt.mpr hc')]
      have hgn : g.toNat < n.toNat := Nat.lt_of_le_of_lt (Nat.le_mul_of_pos_right _ hc) hc'
      have hsucc : (g.toNat + 1) * c.toNat = g.toNat * c.toNat + c.toNat := Nat.succ_mul _ _
      have hle : g.toNat + 1 ≤ (g.toNat + 1) * c.toNat := Nat.le_mul_of_pos_right _ hc
      have hb : 1 < 2 ^ b := by omega
      have h1b : (1 : BitVec b).toNat = 1 := by
        show (BitVec.ofNat b 1).toNat = 1
        rw [BitVec.toNat_ofNat, Nat.mod_eq_of_lt hb]
      have hgs : (g + 1).toNat = g.toNat + 1 := by
        rw [BitVec.toNat_add, h1b, Nat.mod_eq_of_lt (by omega)]
      obtain ⟨k, rfl⟩ : ∃ k, fuel' = k + 1 := ⟨fuel' - 1, by omega⟩
      have hd : deLoop env gap n.toNat c.toNat (k + 1) g.toNat st =
          (deGeneration env gap n.toNat c.toNat g.toNat st >>= fun st' => deLoop env gap n.toNat c.toNat k (g.toNat + 1) st') := by
        conv => lhs; unfold deLoop
        rw [if_pos hc']
      rw [hd, Prog.bind_assoc', generation_eq env gap n g c n.toNat (same_of_small n g c h hc') st]
      have : ∀ st', deLoopW env gap n c fuel (g + 1) st' = (deLoop env gap n.toNat c.toNat k (g.toNat + 1) st' >>= fun _ => pure true) := by
        intro st'
        rw [ih k (g + 1) st' (by rw [hgs]; omega) (by rw [hgs]; omega) (by rw [hgs]; omega), hgs]
      simp only [this]
    · rw [if_neg (fun h' => hc' (hlt.mp h'))]
      cases fuel' with
      | zero => rfl
      | succ k =>
        have : deLoop env gap n.toNat c.toNat (k + 1) g.toNat st = pure () := by
          conv => lhs; unfold deLoop
          rw [if_neg hc']
        rw [this]
        rfl

/-- Multiples of a power of two are multiples of it also modulo a larger power of two. -/
theorem product_small (g c : BitVec b) (k : Nat) (hk : k ≤ b) (hc : c.toNat = 2 ^ k) : (g * c).toNat + 2 ^ k ≤ 2 ^ b := by
  have hd : 2 ^ k ∣ 2 ^ b := Nat.pow_dvd_pow 2 hk
  have h1 : 2 ^ k ∣ (g * c).toNat := by
    rw [BitVec.toNat_mul, hc]
    exact (Nat.dvd_mod_iff hd).mpr (Nat.dvd_mul_left _ _)
  have h2 : (g * c).toNat < 2 ^ b := (g * c).isLt
  obtain ⟨x, hx⟩ := h1
  obtain ⟨y, hy⟩ := hd
  rw [hx, hy] at h2 ⊢
  have : x < y := Nat.lt_of_mul_lt_mul_left h2
  calc 2 ^ k * x + 2 ^ k = 2 ^ k * (x + 1) := by rw [Nat.mul_succ]
    _ ≤ 2 ^ k * y := Nat.mul_le_mul_left _ this

theorem same_of_power (n g c : BitVec b) (k : Nat) (hk : k < b) (hc : c.toNat = 2 ^ k) :
    Same n g c (n.toNat + (g.toNat * c.toNat - (g * c).toNat)) ∧ (g * c).toNat ≤ g.toNat * c.toNat := by
  have hs := product_small g c k (by omega) hc
  have hle : (g * c).toNat ≤ g.toNat * c.toNat := by rw [BitVec.toNat_mul]; exact Nat.mod_le _ _
  refine ⟨?_, hle⟩
  intro chain hch
  unfold deEnough
  have h1 : (g * c + BitVec.ofNat b chain).toNat = (g * c).toNat + chain := by
    rw [BitVec.toNat_add, BitVec.toNat_ofNat, Nat.mod_eq_of_lt (a := chain) (by omega), Nat.mod_eq_of_lt (by omega)]
  rw [decide_eq_true_iff, ge_iff_le, BitVec.le_def, h1]
  omega

theorem endless (env : World W S D (Stop Empty)) (L : S → D) (hL : LikelihoodIs env L) (hp : Polite env) (gap : Nat) (n c : BitVec b)
    (k : Nat) (hk2 : 2 ≤ k) (hk : k < b) (hc : c.toNat = 2 ^ k) (hn : 2 ^ b < n.toNat + 2 ^ k) (fuel : Nat) :
    ∀ (g : BitVec b) (st : DEState S D), DEOk L c.toNat 0 st → ∀ w,
      (deLoopW env gap n c fuel g st w).2.1 = .ok false ∧ fuel ≤ (issuedOf (deLoopW env gap n c fuel g st w).1).length := by
  induction fuel with
  | zero => intro g st _ w; exact ⟨rfl, Nat.zero_le _⟩
  | succ fuel ih =>
    intro g st hst w
    have h4 : 4 ≤ c.toNat := by rw [hc]; exact Nat.pow_le_pow_right (n := 2) (by omega) hk2
    have hs := product_small g c k (by omega) hc
    obtain ⟨hsame, hle⟩ := same_of_power n g c k hk hc
    have hlt : g * c < n := by rw [BitVec.lt_def]; omega
    have hu : deLoopW env gap n c (fuel + 1) g st =
        (deGeneration env gap (n.toNat + (g.toNat * c.toNat - (g * c).toNat)) c.toNat g.toNat st >>= fun st' => deLoopW env gap n c fuel (g + 1) st') := by
      conv => lhs; unfold deLoopW
      rw [if_pos hlt, generation_eq env gap n g c _ hsame st]
    rw [hu]
    have hsafe := (Safe.deGeneration hp gap (n.toNat + (g.toNat * c.toNat - (g * c).toNat)) c.toNat g.toNat (by omega) st ⟨hst.lcur, hst.lnext, hst.llls⟩ w).1
    have hiss := (deGeneration_issues env L hL gap (n.toNat + (g.toNat * c.toNat - (g * c).toNat)) g.toNat c.toNat st hst w).2.2
    rcases h1 : deGeneration env gap (n.toNat + (g.toNat * c.toNat - (g * c).toNat)) c.toNat g.toNat st w with ⟨tr, (e | st'), w1⟩
    · rw [h1] at hsafe
      rcases e with e | f
      · exact e.elim
      · exact absurd rfl (hsafe f)
    · rw [h1] at hiss
      have hlen := hiss st' rfl
      obtain ⟨-, -, -, -, -, k5⟩ := deGeneration_inv env L hL gap _ g.toNat c.toNat st hst w w1 tr st' h1
      obtain ⟨j1, j2⟩ := ih (g + 1) st' k5 w1
      rw [Prog.bind_ok h1]
      refine ⟨j1, ?_⟩
      simp only [issuedOf_append, List.length_append]
      simp only at hlen
      rw [hlen]
      have : 1 ≤ min c.toNat (n.toNat + (g.toNat * c.toNat - (g * c).toNat) - g.toNat * c.toNat) := by
        rw [hc] at h4 hle ⊢
        omega
      omega

end DEWords

/-- C101 (partial): if `n_samples + n_chains ≤ 2^b`, the counters of `b` bits make no difference: for every world, also if functions throw, a run of the program is, event by event, the run
described by the properties C40, C48, C49 and C51, and the loop has ended after at most `n_samples` generations.  (Full property: the
same for every number of samples that can be passed; false, see `C101_violation`.) -/
theorem C101_words_partial (env : World W S D (Stop E)) (starts : List S) (gap : Nat) (n : BitVec b) (h : n.toNat + starts.length ≤ 2 ^ b) (hb : starts.length < 2 ^ b)
    (fuel : Nat) (hf : n.toNat < fuel) :
    deSampleW env starts gap n fuel = (deSample env starts gap n.toNat >>= fun _ => pure true) := by
  unfold deSampleW deSample
  by_cases h3 : starts.length ≥ 3
  · rw [if_pos h3, if_pos h3]
    have hc : (BitVec.ofNat b starts.length).toNat = starts.length := by rw [BitVec.toNat_ofNat, Nat.mod_eq_of_lt hb]
    have h0 : (0 : BitVec b).toNat = 0 := BitVec.toNat_ofNat .. |>.trans (Nat.zero_mod _)
    have key : ∀ st : DEState S D, deLoopW env gap n (BitVec.ofNat b starts.length) fuel 0 st =
        (deLoop env gap n.toNat starts.length n.toNat 0 st >>= fun _ => pure true) := by
      intro st
      have := DEWords.loop_eq env gap n (BitVec.ofNat b starts.length) (by rw [hc]; omega) (by rw [hc]; exact h) fuel n.toNat 0 st
        (by rw [hc, h0]; omega) (by rw [h0]; omega) (by rw [h0]; omega)
      rw [this, hc, h0]
    simp only [key]
    funext w
    rw [← Prog.bind_assoc']
    generalize (deInitial env starts >>= fun lls => deLoop env gap n.toNat starts.length n.toNat 0 ⟨starts, starts, lls⟩) = p
    unfold Prog.withScopeExit
    rcases hp : p w with ⟨tr, (e | a), w'⟩
    · have h1 : (p >>= fun _ => (pure true : Prog W S D (Stop E) Bool)) w = (tr, .error e, w') := Prog.bind_error hp
      rw [h1]
      symm
      exact Prog.bind_error (by rw [hp])
    · have h1 : (p >>= fun _ => (pure true : Prog W S D (Stop E) Bool)) w = (tr ++ [], .ok true, w') := Prog.bind_ok hp
      rw [h1]
      symm
      refine (Prog.bind_ok (by rw [hp])).trans ?_
      simp [Prog.pure_run]
  · rw [if_neg h3, if_neg h3]
    rfl

/-- C101 (violated): if the number of chains is a power of two, and `n_samples + n_chains > 2^b`, then `generation * n_chains` wraps around to 0 before it reaches `n_samples`: however
long one waits, the loop has not ended, and samples without bound have been issued.  No function throws (`Stop Empty`). -/
theorem C101_violation (env : World W S D (Stop Empty)) (L : S → D) (hL : LikelihoodIs env L) (hp : Polite env) (starts : List S) (gap : Nat) (n : BitVec b)
    (k : Nat) (hk2 : 2 ≤ k) (hk : k < b) (hs : starts.length = 2 ^ k) (hn : 2 ^ b < n.toNat + starts.length) (fuel : Nat) (w : W) :
    (deSampleW env starts gap n fuel w).2.1 = .ok false ∧ fuel ≤ (issuedOf (deSampleW env starts gap n fuel w).1).length := by
  have h4 : 4 ≤ starts.length := by rw [hs]; exact Nat.pow_le_pow_right (n := 2) (by omega) hk2
  have hlt : (2 : Nat) ^ k < 2 ^ b := Nat.pow_lt_pow_right (by omega) hk
  have hc : (BitVec.ofNat b starts.length).toNat = starts.length := by rw [BitVec.toNat_ofNat, Nat.mod_eq_of_lt (by omega)]
  unfold deSampleW
  rw [if_pos (show starts.length ≥ 3 by omega)]
  unfold Prog.withScopeExit
  have hsafe := (Safe.deInitial hp starts w).1
  rcases h1 : deInitial env starts w with ⟨tr, (e | lls), w1⟩
  · rw [h1] at hsafe
    rcases e with e | f
    · exact e.elim
    · exact absurd rfl (hsafe f)
  · obtain ⟨rfl, -⟩ := deInitial_inv env L hL starts w w1 tr lls h1
    simp only [Prog.bind_ok h1]
    have hok : DEOk L (BitVec.ofNat b starts.length).toNat 0 (⟨starts, starts, starts.map L⟩ : DEState S D) := by rw [hc]; exact DEOk.initial L starts
    obtain ⟨j1, j2⟩ := DEWords.endless env L hL hp gap n (BitVec.ofNat b starts.length) k hk2 hk (by rw [hc]; exact hs) (by rw [← hs]; exact hn) fuel 0 _ hok w1
    refine ⟨j1, ?_⟩
    simp only [issuedOf_append, List.length_append]
    omega

/-- C101: for a number of chains that is a power of two, the condition of `C101_words_partial` is exact: the loop ends if and only if
`n_samples + n_chains ≤ 2^b`. -/
theorem C101_ends_iff (env : World W S D (Stop Empty)) (L : S → D) (hL : LikelihoodIs env L) (hp : Polite env) (starts : List S) (gap : Nat) (n : BitVec b)
    (k : Nat) (hk2 : 2 ≤ k) (hk : k < b) (hs : starts.length = 2 ^ k) (w : W) :
    (∃ fuel, (deSampleW env starts gap n fuel w).2.1 = .ok true) ↔ n.toNat + starts.length ≤ 2 ^ b := by
  have h4 : 4 ≤ starts.length := by rw [hs]; exact Nat.pow_le_pow_right (n := 2) (by omega) hk2
  have hlt : (2 : Nat) ^ k < 2 ^ b := Nat.pow_lt_pow_right (by omega) hk
  constructor
  · rintro ⟨fuel, hf⟩
    by_cases hn : n.toNat + starts.length ≤ 2 ^ b
    · exact hn
    · have := (C101_violation env L hL hp starts gap n k hk2 hk hs (by omega) fuel w).1
      rw [this] at hf
      cases hf
  · intro h
    refine ⟨n.toNat + 1, ?_⟩
    rw [C101_words_partial env starts gap n h (by omega) _ (Nat.lt_succ_self _)]
    have hsafe := deSample_safe hp starts (by omega) gap n.toNat w
    rcases h1 : deSample env starts gap n.toNat w with ⟨tr, (e | a), w'⟩
    · rw [h1] at hsafe
      rcases e with e | f
      · exact e.elim
      · exact absurd rfl (hsafe f)
    · rw [Prog.bind_ok h1]
      rfl

/-- C101 (partial): a call that returns, with `n_samples + n_chains ≤ 2^b`, has issued exactly `n_samples` samples. -/
theorem C101_count_partial (env : World W S D (Stop E)) (L : S → D) (hL : LikelihoodIs env L) (starts : List S) (gap : Nat) (n : BitVec b)
    (h : n.toNat + starts.length ≤ 2 ^ b) (hb : starts.length < 2 ^ b) (fuel : Nat) (hf : n.toNat < fuel) (w : W) (r : Bool)
    (hr : (deSampleW env starts gap n fuel w).2.1 = .ok r) :
    r = true ∧ (issuedOf (deSampleW env starts gap n fuel w).1).length = n.toNat := by
  rw [C101_words_partial env starts gap n h hb fuel hf] at hr ⊢
  rcases h1 : deSample env starts gap n.toNat w with ⟨tr, (e | a), w'⟩
  · rw [Prog.bind_error h1] at hr; cases hr
  · rw [Prog.bind_ok h1] at hr ⊢
    refine ⟨by cases hr; rfl, ?_⟩
    simp only [Prog.pure_run, List.append_nil]
    have := (C48_samples env L hL starts gap n.toNat w).2.1
    rw [h1] at this
    exact this rfl

/-- The premises can be met: words of four bits, four chains.  With 10 samples the call issues these 10 samples and returns; with
14 samples it is not done after 1000 generations, and has issued at least 1000 samples. -/
example (w : List Nat) : let _ := toyOps
    ((deSampleW (toyWorld (E := Stop Empty)) [0, 1, 2, 3] 2 (10 : BitVec 4) 11 w).2.1 = .ok true) ∧
    ((deSampleW (toyWorld (E := Stop Empty)) [0, 1, 2, 3] 2 (14 : BitVec 4) 1000 w).2.1 = .ok false ∧
      1000 ≤ (issuedOf (deSampleW (toyWorld (E := Stop Empty)) [0, 1, 2, 3] 2 (14 : BitVec 4) 1000 w).1).length) := by
  intro _
  have hp : Polite (toyWorld (E := Stop Empty)) := by
    constructor
    · intro x w f w' h; cases h
    · intro x l w f w' h; cases h
    · intro x a b w f w' h; cases h
    · intro x a w f w' h; cases h
    · intro k w; exact Nat.min_le_left _ _
  have hL := toy_likelihood_de
  refine ⟨?_, C101_violation _ _ hL hp [0, 1, 2, 3] 2 (14 : BitVec 4) 2 (by omega) (by omega) rfl (by decide) 1000 w⟩
  rw [C101_words_partial _ [0, 1, 2, 3] 2 (10 : BitVec 4) (by decide) (by decide) 11 (by decide)]
  have hsafe := deSample_safe (D := Int) hp [0, 1, 2, 3] (by decide) 2 (10 : BitVec 4).toNat w
  rcases h1 : deSample (toyWorld (E := Stop Empty)) [0, 1, 2, 3] 2 (10 : BitVec 4).toNat w with ⟨tr, (e | a), w'⟩
  · rw [h1] at hsafe
    rcases e with e | f
    · exact e.elim
    · exact absurd rfl (hsafe f)
  · rw [Prog.bind_ok h1]
    rfl

end SampleFlow
