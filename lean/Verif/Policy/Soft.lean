import Verif.Policy.Model

/-!
# Action values, state values and further entropies of distributions

`action_value` and `state_value` of `tensorforce/core/distributions/{bernoulli,categorical,gaussian}.py`, and the entropies of
`gaussian.py` and `beta.py`. Simplifications as in `Verif/Policy/Model.lean`.
-/

namespace Verif.Policy

variable {K : Type} [Field K] [LinearOrder K]

/-- `Bernoulli.action_value`, `bernoulli.py:217-225`. -/
def bernoulliActionValue (p : BernoulliParams K) (action : Bool) : K :=
  p.stateValue + (if action then p.trueLogit else p.falseLogit)

/-- `Categorical.action_value`, `categorical.py:399-407`; `none` for an action out of range. -/
def categoricalActionValue (p : CategoricalParams K) (action : Nat) : Option K := p.actionValues[action]?

/-- `Gaussian.action_value`, `gaussian.py:371-405`; `logTwoPi` is the constant `log(2 * pi)`. -/
def gaussianActionValue (f : Fns K) (logTwoPi : K) (transform : Option Transform) (lo hi : Option K) (p : GaussianParams K)
    (action : K) : K :=
  let action := unbound f transform lo hi action;
  -(1 / 2) * (action - p.mean) ^ 2 / (p.stddev ^ 2 + eps) - 2 * p.logStddev - logTwoPi

/-- `Gaussian.state_value`, `gaussian.py:407-414`. -/
def gaussianStateValue (halfLogTwoPi : K) (p : GaussianParams K) : K := -p.logStddev - halfLogTwoPi

/-- `Gaussian.entropy`, `gaussian.py:346-354`; `halfLogTwoPiE` is the constant `0.5 * log(2 * pi * e)`. -/
def gaussianEntropy (halfLogTwoPiE : K) (p : GaussianParams K) : K := p.logStddev + halfLogTwoPiE

/-- `Beta.entropy`, `beta.py:239-254`. -/
def betaEntropy (f : Fns K) (p : BetaParams K) : K :=
  p.logNorm - (p.beta - 1) * f.digamma p.beta - (p.alpha - 1) * f.digamma p.alpha + (p.alphaBeta - 1 - 1) * f.digamma p.alphaBeta

end Verif.Policy
