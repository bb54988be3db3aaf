import Verif.Model.Mutex

/-!
# Specification: sequential histories
-/

namespace SampleFlow.Mutex.Spec

open SampleFlow.Mutex

variable {σ Op R : Type}

/-- A call executed alone. -/
def call (o : Object σ Op R) (m : σ) (op : Op) : σ × R :=
  (o.body op).foldl (fun p f => f p.1 p.2) (m, o.local0 op)

/-- The members after a sequence of calls executed one after the other. -/
def membersAfter (o : Object σ Op R) (m : σ) (calls : List Op) : σ :=
  calls.foldl (fun m op => (call o m op).1) m

/-- The history is that of a sequential execution: each call returned what it returns if executed alone
after all the calls before it. -/
def Sequential (o : Object σ Op R) (m : σ) (h : List (Nat × Op × R)) : Prop :=
  ∀ pre i op r post, h = pre ++ (i, op, r) :: post →
    r = (call o (membersAfter o m (pre.map (fun e => e.2.1))) op).2

/-- The calls of thread `i` in a history. -/
def callsOf (h : List (Nat × Op × R)) (i : Nat) : List Op :=
  (h.filter (fun e => e.1 == i)).map (fun e => e.2.1)

end SampleFlow.Mutex.Spec
