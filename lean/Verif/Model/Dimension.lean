import Verif.Model.Moments

/-!
# The numerical consumers at the level of elements

`Model/Moments` treats samples as functions on a fixed index set.  Here the same classes are modelled as they are written: a sample
is an object of some type `S` with the functions of element_access.impl.h and the compound assignments of the type; every access to
an element of a sample or of a matrix may be out of bounds, every compound assignment may meet two objects of different sizes.
Arithmetic is exact (a field `K`).
-/

namespace SampleFlow.Dim

/-- What the consumers use of a sample type `S` with elements in `K`.
* `size`, `nth`: `Utilities::size`, `Utilities::get_nth_element` (element_access.impl.h 32-69, 83-91, 119-127); an index that is too
  large is undefined behaviour (with assertions enabled: the `assert` in lines 89, 125).
* `set`: assignment to the reference returned by the non-`const` `get_nth_element` (98-106, 140-148).
* `sub`, `add`: `a -= b`, `a += b`: undefined behaviour for `std::valarray` of different sizes (Eigen: assertion).
* `scale`: `a *= c` (`a /= n` is modelled as `a *= 1/n`: the same in exact arithmetic). -/
structure Elements (S K : Type) where
  size : S → Nat
  nth : S → Nat → Except Fault K
  set : S → Nat → K → Except Fault S
  sub : S → S → Except Fault S
  add : S → S → Except Fault S
  scale : S → K → S

/-- Writing to `vector[i]`.
(E.g. element_access.impl.h 83-148.) -/
def writeAt {X : Type} (xs : List X) (i : Nat) (x : X) : Except Fault (List X) :=
  if i < xs.length then .ok (xs.set i x) else .error .ub

/-- `std::valarray<K>`: `operator[]`, `operator-=`, `operator+=`, `operator*=`.
(Used through element_access.impl.h 32-69, 83-148; the standard library is not part of the code.) -/
def valarray (K : Type) [Field K] : Elements (List K) K where
  size := List.length
  nth := readAt
  set := writeAt
  sub a b := if a.length = b.length then .ok (List.zipWith (· - ·) a b) else .error .ub
  add a b := if a.length = b.length then .ok (List.zipWith (· + ·) a b) else .error .ub
  scale a c := a.map (· * c)

/-- Scalar samples: `size` is 1 (element_access.impl.h 47-52), element 0 is the sample itself (119-127, 140-148). -/
def scalar (K : Type) [Field K] : Elements K K where
  size _ := 1
  nth x i := if i = 0 then .ok x else .error .ub
  set _ i y := if i = 0 then .ok y else .error .ub
  sub a b := .ok (a - b)
  add a b := .ok (a + b)
  scale a c := a * c

/-- `for (unsigned int i=0; i<d; ++i) s = body(i, s)`.
(E.g. covariance_matrix.impl.h 183-191.) -/
def loop {X : Type} (d : Nat) (s : X) (body : Nat → X → Except Fault X) : Except Fault X :=
  (List.range d).foldlM (fun s i => body i s) s

/-- A dense Eigen matrix.
(Eigen; used in covariance_matrix.impl.h 155-197, auto_covariance_matrix.impl.h 368-474.) -/
structure Mat (K : Type) where
  rows : Nat
  cols : Nat
  entry : Nat → Nat → K

/-- `m.resize(n,k)` for a matrix of another size: the memory `G` is not initialised.
(covariance_matrix.impl.h 172.) -/
def Mat.resized {K : Type} (n k : Nat) (G : Nat → Nat → K) : Mat K := ⟨n, k, G⟩

/-- `m(i,j)`, read: bounds are only checked by an assertion.
(covariance_matrix.impl.h 189.) -/
def Mat.at {K : Type} (m : Mat K) (i j : Nat) : Except Fault K :=
  if i < m.rows ∧ j < m.cols then .ok (m.entry i j) else .error .ub

/-- `m(i,j) = x`.
(covariance_matrix.impl.h 189.) -/
def Mat.put {K : Type} (m : Mat K) (i j : Nat) (x : K) : Except Fault (Mat K) :=
  if i < m.rows ∧ j < m.cols then .ok { m with entry := fun a b => if a = i ∧ b = j then x else m.entry a b } else .error .ub

/-- Two nested loops `for i < d, for j < d: m(i,j) = f(i,j,m(i,j))`.
(covariance_matrix.impl.h 183-191, auto_covariance_matrix.impl.h 421-445.) -/
def Mat.forAll {K : Type} (m : Mat K) (d : Nat) (f : Nat → Nat → K → Except Fault K) : Except Fault (Mat K) :=
  loop d m fun i m => loop d m fun j m => do
    let x ← m.at i j
    let y ← f i j x
    m.put i j y

/-- `a += b` for matrices: the sizes must agree.
(auto_covariance_matrix.impl.h 421-445.) -/
def Mat.add {K : Type} [Field K] (a b : Mat K) : Except Fault (Mat K) :=
  if a.rows = b.rows ∧ a.cols = b.cols then .ok ⟨a.rows, a.cols, fun i j => a.entry i j + b.entry i j⟩ else .error .ub

variable {S K : Type} [Field K]

/-! ## MeanValue -/

/-- `current_mean += (sample - current_mean)/n`, the statements used in all four classes (mean_value.impl.h 194-198,
covariance_matrix.impl.h 192-195, auto_covariance_trace.impl.h 504-508, auto_covariance_matrix.impl.h 468-472). -/
def updateMean (E : Elements S K) (n : Nat) (mean sample : S) : Except Fault S := do
  let update ← E.sub sample mean
  let update := E.scale update (1 / (n : K))
  E.add mean update

/-- `MeanValue::consume`, mean_value.impl.h 173-200. -/
def meanConsume (E : Elements S K) (s : MeanState S) (sample : S) : Except Fault (MeanState S) :=
  if s.n = 0 then .ok ⟨1, sample⟩
  else do
    let n := s.n + 1
    let mean ← updateMean E n s.mean sample
    return ⟨n, mean⟩

/-- A MeanValue object that has consumed `xs`; `G`: see `MeanState.init`.
(Repeated mean_value.impl.h 173-200.) -/
def meanRun (E : Elements S K) (G : S) (xs : List S) : Except Fault (MeanState S) :=
  xs.foldlM (meanConsume E) ⟨0, G⟩

/-! ## CovarianceMatrix -/

/-- Members of `CovarianceMatrix`, covariance_matrix.impl.h 116-127. -/
structure CovObj (S K : Type) where
  n : Nat
  mean : S
  C : Mat K

/-- `CovarianceMatrix::consume`, covariance_matrix.impl.h 155-197. -/
def covConsume [Star K] (E : Elements S K) (G : Nat → Nat → K) (s : CovObj S K) (sample : S) : Except Fault (CovObj S K) :=
  if s.n = 0 then .ok ⟨1, sample, Mat.resized (E.size sample) (E.size sample) G⟩
  else do
    let n := s.n + 1
    let delta ← E.sub sample s.mean
    let C ← s.C.forAll (E.size sample) fun i j c => do
      let delta_i ← E.nth delta i
      let delta_j ← E.nth delta j
      return c + ((delta_i * star delta_j) / (n : K) - c / ((n : K) - 1))
    let mean ← updateMean E n s.mean sample
    return ⟨n, mean, C⟩

/-- A CovarianceMatrix object that has consumed `xs`; the matrix is empty at first.
(Repeated covariance_matrix.impl.h 155-197.) -/
def covRun [Star K] (E : Elements S K) (M : S) (G : Nat → Nat → K) (xs : List S) : Except Fault (CovObj S K) :=
  xs.foldlM (covConsume E G) ⟨0, M, ⟨0, 0, G⟩⟩

/-! ## AutoCovarianceTrace -/

/-- Members of `AutoCovarianceTrace`, auto_covariance_trace.impl.h 355-382. -/
structure ACTObj (S K : Type) where
  n : Nat
  mean : S
  alpha : List K
  beta : List S
  previous : List S

/-- `for (j=0; j<d; ++j) acc += f(j)`.
(auto_covariance_trace.impl.h 457-478.) -/
def sumLoop (d : Nat) (acc : K) (f : Nat → Except Fault K) : Except Fault K :=
  loop d acc fun j acc => do
    let x ← f j
    return acc + x

/-- `get_nth_element(a,j) * get_nth_element(b,j)`.
(auto_covariance_trace.impl.h 457-478.) -/
def mulNth (E : Elements S K) (a b : S) (j : Nat) : Except Fault K := do
  let x ← E.nth a j
  let y ← E.nth b j
  return x * y

/-- Setting all elements of a copy of `sample` to zero, auto_covariance_trace.impl.h 427-436, auto_covariance_matrix.impl.h 389-400. -/
def zeroLike (E : Elements S K) (sample : S) : Except Fault S :=
  loop (E.size sample) sample fun j v => E.set v j 0

/-- The new `alpha[l]`, `beta[l]` in the loop over `l`, auto_covariance_trace.impl.h 446-492. -/
def actLag (E : Elements S K) (n : Nat) (prev : List S) (sample : S) (l : Nat) (alpha : K) (beta : S) : Except Fault (K × S) :=
  let d := E.size sample
  if n = l + 1 then do
    let p0 ← readAt prev 0
    let pl ← readAt prev l
    let p1 ← readAt prev 1
    let pl1 ← readAt prev (l+1)
    let alpha ← sumLoop d 0 (mulNth E p0 pl)
    let alpha ← sumLoop d alpha (mulNth E p1 pl1)
    let beta ← E.add p0 p1
    let beta ← E.add beta pl
    let beta ← E.add beta pl1
    return (alpha, beta)
  else if n ≥ l + 2 then do
    let pl ← readAt prev l
    let alphaupd ← sumLoop d (-alpha) (mulNth E sample pl)
    let alphaupd := alphaupd * (1 / ((n : K) - l))
    let betaupd ← loop d sample fun j v => do
      let x ← E.nth v j
      let y ← E.nth pl j
      let v ← E.set v j (x + y)
      let x ← E.nth v j
      let y ← E.nth beta j
      let v ← E.set v j (x - y)
      let x ← E.nth v j
      E.set v j (x * (1 / ((n : K) - l)))
    let beta ← E.add beta betaupd
    return (alpha + alphaupd, beta)
  else return (alpha, beta)

/-- `AutoCovarianceTrace::consume`, auto_covariance_trace.impl.h 409-510. -/
def actConsume (E : Elements S K) (maxLag : Nat) (s : ACTObj S K) (sample : S) : Except Fault (ACTObj S K) :=
  if s.n = 0 then do
    let z ← zeroLike E sample
    return ⟨1, sample, List.replicate (maxLag+1) 0, List.replicate (maxLag+1) z, sample :: s.previous⟩
  else do
    let prev := sample :: s.previous
    let (alpha, beta) ← loop (maxLag+1) (s.alpha, s.beta) fun l ab => do
      let a ← readAt ab.1 l
      let b ← readAt ab.2 l
      let (a, b) ← actLag E s.n prev sample l a b
      let alpha ← writeAt ab.1 l a
      let beta ← writeAt ab.2 l b
      return (alpha, beta)
    let prev := if prev.length > maxLag + 1 then prev.dropLast else prev
    let n := s.n + 1
    let mean ← updateMean E n s.mean sample
    return ⟨n, mean, alpha, beta, prev⟩

/-- An AutoCovarianceTrace object that has consumed `xs`.
(Repeated auto_covariance_trace.impl.h 409-510.) -/
def actRun (E : Elements S K) (maxLag : Nat) (M : S) (xs : List S) : Except Fault (ACTObj S K) :=
  xs.foldlM (actConsume E maxLag) ⟨0, M, [], [], []⟩

/-- `AutoCovarianceTrace::get`, auto_covariance_trace.impl.h 514-542. -/
def actGet (E : Elements S K) (maxLag : Nat) (s : ACTObj S K) : Except Fault (List K) :=
  (List.range (maxLag+1)).mapM fun l => do
    let a ← readAt s.alpha l
    let b ← readAt s.beta l
    let r ← loop (E.size s.mean) a fun j r => do
      let x ← mulNth E s.mean b j
      return r - x
    if s.n > l + 1 then
      loop (E.size s.mean) r fun j r => do
        let x ← E.nth s.mean j
        return r + (1 + 1 / ((s.n : K) - l - 1)) * x * x
    else return r

/-! ## AutoCovarianceMatrix -/

/-- Members of `AutoCovarianceMatrix`, auto_covariance_matrix.impl.h 314-342. -/
structure ACMObj (S K : Type) where
  n : Nat
  mean : S
  alpha : List (Mat K)
  beta : List S
  eta : List S
  previous : List S

/-- `a_i * b_j`.
(auto_covariance_matrix.impl.h 421-445.) -/
def mulIJ (E : Elements S K) (a b : S) (i j : Nat) : Except Fault K := do
  let x ← E.nth a i
  let y ← E.nth b j
  return x * y

/-- The new `alpha[l]`, `beta[l]`, `eta[l]`, auto_covariance_matrix.impl.h 417-460. -/
def acmLag (E : Elements S K) (n : Nat) (prev : List S) (sample : S) (l : Nat) (alpha : Mat K) (beta eta : S) :
    Except Fault (Mat K × S × S) :=
  let d := E.size sample
  if n = l + 1 then do
    let p0 ← readAt prev 0
    let pl ← readAt prev l
    let p1 ← readAt prev 1
    let pl1 ← readAt prev (l+1)
    let alpha ← alpha.forAll d fun i j c => do
      let x ← mulIJ E p0 pl i j
      return c + x
    let alpha ← alpha.forAll d fun i j c => do
      let x ← mulIJ E p1 pl1 i j
      return c + x
    let beta ← E.add p0 p1
    let eta ← E.add eta pl
    let eta ← E.add eta pl1
    return (alpha, beta, eta)
  else if n ≥ l + 2 then do
    let pl ← readAt prev l
    let alphaupd : Mat K := ⟨alpha.rows, alpha.cols, fun i j => -alpha.entry i j⟩
    let alphaupd ← alphaupd.forAll d fun i j c => do
      let x ← mulIJ E sample pl i j
      return c + x
    let alphaupd : Mat K := ⟨alphaupd.rows, alphaupd.cols, fun i j => alphaupd.entry i j * (1 / ((n : K) - l))⟩
    let alpha ← alpha.add alphaupd
    let betaupd ← E.sub sample beta
    let betaupd := E.scale betaupd (1 / ((n : K) - l))
    let beta ← E.add beta betaupd
    let etaupd ← E.sub pl eta
    let etaupd := E.scale etaupd (1 / ((n : K) - l))
    let eta ← E.add eta etaupd
    return (alpha, beta, eta)
  else return (alpha, beta, eta)

/-- `AutoCovarianceMatrix::consume`, auto_covariance_matrix.impl.h 368-474. -/
def acmConsume (E : Elements S K) (maxLag : Nat) (G : Nat → Nat → Nat → K) (s : ACMObj S K) (sample : S) :
    Except Fault (ACMObj S K) :=
  if s.n = 0 then do
    let z ← zeroLike E sample
    return ⟨1, sample, (List.range (maxLag+1)).map (fun l => Mat.resized (E.size sample) (E.size sample) (G l)),
      List.replicate (maxLag+1) z, List.replicate (maxLag+1) z, sample :: s.previous⟩
  else do
    let prev := sample :: s.previous
    let (alpha, beta, eta) ← loop (maxLag+1) (s.alpha, s.beta, s.eta) fun l ab => do
      let a ← readAt ab.1 l
      let b ← readAt ab.2.1 l
      let e ← readAt ab.2.2 l
      let (a, b, e) ← acmLag E s.n prev sample l a b e
      let alpha ← writeAt ab.1 l a
      let beta ← writeAt ab.2.1 l b
      let eta ← writeAt ab.2.2 l e
      return (alpha, beta, eta)
    let prev := if prev.length > maxLag + 1 then prev.dropLast else prev
    let n := s.n + 1
    let mean ← updateMean E n s.mean sample
    return ⟨n, mean, alpha, beta, eta, prev⟩

/-- An AutoCovarianceMatrix object that has consumed `xs`.
(Repeated auto_covariance_matrix.impl.h 368-474.) -/
def acmRun (E : Elements S K) (maxLag : Nat) (G : Nat → Nat → Nat → K) (M : S) (xs : List S) : Except Fault (ACMObj S K) :=
  xs.foldlM (acmConsume E maxLag G) ⟨0, M, [], [], [], []⟩

/-- `AutoCovarianceMatrix::get`, auto_covariance_matrix.impl.h 478-514. -/
def acmGet (E : Elements S K) (maxLag : Nat) (s : ACMObj S K) : Except Fault (List (Mat K)) :=
  (List.range (maxLag+1)).mapM fun l => do
    let r ← readAt s.alpha l
    let b ← readAt s.beta l
    let e ← readAt s.eta l
    let d := E.size s.mean
    let r ← r.forAll d fun i j c => do
      let x ← mulIJ E s.mean e i j
      return c - x
    let r ← r.forAll d fun i j c => do
      let x ← mulIJ E b s.mean i j
      return c - x
    if s.n > l + 1 then
      r.forAll d fun i j c => do
        let x ← E.nth s.mean i
        let y ← E.nth s.mean j
        return c + (1 + 1 / ((s.n : K) - l - 1)) * x * y
    else return r

end SampleFlow.Dim
