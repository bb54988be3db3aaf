import Verif.Spec.LagNumbers
import Verif.Model.Filters
import Verif.Model.EndToEnd

/-! # Specification: the Metropolis-Hastings sampler in equilibrium -/

namespace SampleFlow.Spec

section
variable {S ι : Type} [Fintype S] (max : ℝ) (π : S → ℝ) (q : S → S → ℝ) (f : S → ι → ℝ)

/-- Entry `(i,j)` of what `AutoCovarianceMatrix` converges to for lag `l` (`C82_auto_covariance_matrix`): the auto-covariance `E[(f(X_l)_i - m_i)(f(X_0)_j - m_j)]`
of the sampler in equilibrium. -/
noncomputable def autoCovariance (l : Nat) (i j : ι) : ℝ :=
  stationaryLag max π q l (fun x y => (f y i - targetMean π (fun x => f x i)) * (f x j - targetMean π (fun x => f x j)))

/-- What `AutoCovarianceTrace` converges to for lag `l` (`C82_auto_covariance_trace`). -/
noncomputable def autoCovarianceTrace [Fintype ι] (l : Nat) : ℝ :=
  stationaryLag max π q l (fun x y => ∑ j, (f y j - targetMean π (fun x => f x j)) * (f x j - targetMean π (fun x => f x j)))

/-- The mean square error (squared distance) of what `MeanValue` reports after `n` samples of a run that starts in `start`; `G` is uninitialised memory. -/
noncomputable def meanError [Fintype ι] (G : ι → ℝ) (n : Nat) (start : S) : ℝ :=
  expected max π q (meanStep f) (MeanState.init G) start n (fun script =>
    ∑ i, ((consumerState max π q (meanStep f) (MeanState.init G) start script).get i - targetMean π (fun x => f x i)) ^ 2)

/-- The same for sampler `>> TakeEveryNth(m) >> MeanValue`, after `n` samples of the sampler. -/
noncomputable def thinnedMeanError [Fintype ι] (m : UInt64) (G : ι → ℝ) (n : Nat) (start : S) : ℝ :=
  expected max π q (behindFilter (takeEveryNth S (Aux XR) m) (meanStep f)) (.ok 0, MeanState.init G) start n (fun script =>
    ∑ i, ((consumerState max π q (behindFilter (takeEveryNth S (Aux XR) m) (meanStep f)) (.ok 0, MeanState.init G) start script).2.get i - targetMean π (fun x => f x i)) ^ 2)

end

end SampleFlow.Spec
