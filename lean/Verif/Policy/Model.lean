import Mathlib.Algebra.Order.Field.Basic

/-!
# Model of the action distributions and of the policies built on them

`tensorforce/core/distributions/{bernoulli,categorical,gaussian,beta}.py`,
`tensorforce/core/policies/{stochastic_policy,parametrized_distributions}.py`.

All distribution functions act elementwise on the components of an action tensor, so the model is
about one component: the network outputs of that component go in, a value of that component comes
out.  A categorical component has `num_values` network outputs, hence lists.

Numbers are elements of an arbitrary linearly ordered field `K`: the rationals to evaluate the
model, the reals to read the theorems.  Rounding, overflow and `NaN` are not modelled.  The
elementary functions are a parameter `Fns`; the theorems say which facts about them they use.
Random numbers are arguments.  Summaries, tracking and control dependencies have no effect on the
values and are left out.
-/

namespace Verif.Policy

variable {K : Type} [Field K] [LinearOrder K]

/-- The elementary functions of TensorFlow which the distributions apply elementwise.  `log1p x` is
`log (1 + x)`. -/
structure Fns (K : Type) where
  exp : K → K
  log : K → K
  tanh : K → K
  atanh : K → K
  softplus : K → K
  sigmoid : K → K
  lgamma : K → K
  digamma : K → K

/-- `util.epsilon`, `tensorforce/util.py:26`. -/
def eps : K := 1 / 1000000

/-- `tf_util.get_dtype(type='float').min`, the least 32 bit float: `-(2^24 - 1) * 2^104`. -/
def floatMin : K := -((2 ^ 24 - 1) * 2 ^ 104)

/-- `tf.clip_by_value`. -/
def clip (x lo hi : K) : K := min (max x lo) hi

/-- Scan of `tf.math.argmax`: `best` is the greatest entry so far, `at_` its position, `i` the
position of the next entry.  A later entry replaces the best one only if it is greater. -/
def argmaxFrom (best : K) (at_ i : Nat) : List K → Nat
  | [] => at_
  | x :: xs => if best < x then argmaxFrom x i (i + 1) xs else argmaxFrom best at_ (i + 1) xs

/-- `tf.math.argmax` along the last axis: position of the first greatest entry. -/
def argmax : List K → Nat
  | [] => 0
  | x :: xs => argmaxFrom x 0 1 xs

/-- `tf.math.reduce_max` along the last axis. -/
def maximum : List K → K
  | [] => 0
  | [x] => x
  | x :: y :: xs => max x (maximum (y :: xs))

/-- `tf.math.reduce_mean` along the last axis. -/
def mean (xs : List K) : K := xs.sum / (xs.length : K)

/-- `tf.nn.softmax`, which subtracts the greatest logit before the exponential. -/
def softmax (f : Fns K) (logits : List K) : List K :=
  let es := logits.map fun l => f.exp (l - maximum logits)
  es.map fun e => e / es.sum

/-- `tf.reduce_logsumexp`, likewise with the greatest entry taken out. -/
def logsumexp (f : Fns K) (xs : List K) : K :=
  maximum xs + f.log (xs.map fun x => f.exp (x - maximum xs)).sum

/-- `tf.where(condition=mask, x=xs, y=min_float)`, `categorical.py:226-231` and
`parametrized_value_policy.py:360-364`; `none` if action masking is disabled. -/
def applyMask (mask : Option (List Bool)) (xs : List K) : List K :=
  match mask with
  | none => xs
  | some m => List.zipWith (fun b x => if b then x else floatMin) m xs

/-- Softplus standard deviation and softplus temperature, `gaussian.py:167-176`,
`categorical.py:202-210`. -/
def softplusScale (f : Fns K) (x : K) : K :=
  (f.softplus (clip x (f.log eps) (-f.log eps)) + 1 / 5) / (f.log 2 + 1 / 5)

/-! ### Bernoulli, boolean actions -/

/-- Parameters of `bernoulli.py:112-115`. -/
structure BernoulliParams (K : Type) where
  trueLogit : K
  falseLogit : K
  probability : K
  stateValue : K

/-- `Bernoulli.parametrize`, `bernoulli.py:91-115`. -/
def bernoulliParams (f : Fns K) (logit : K) : BernoulliParams K :=
  { trueLogit := f.log (f.sigmoid logit + eps)
    falseLogit := f.log (1 - f.sigmoid logit + eps)
    probability := f.sigmoid logit
    stateValue := logit }

/-- `Bernoulli.mode`, `bernoulli.py:139-140`. -/
def bernoulliMode (p : BernoulliParams K) : Bool := decide (1 / 2 ≤ p.probability)

/-- `Bernoulli.sample`, `bernoulli.py:166-185`; `u` is the uniform random number. -/
def bernoulliSample (f : Fns K) (p : BernoulliParams K) (temperature u : K) : Bool :=
  if temperature < eps then
    decide (1 / 2 ≤ p.probability)
  else
    let eTrue := f.exp (p.trueLogit / (temperature + eps))
    let eFalse := f.exp (p.falseLogit / (temperature + eps))
    decide (u ≤ eTrue / (eTrue + eFalse + eps))

/-- `Bernoulli.log_probability`, `bernoulli.py:187-191`. -/
def bernoulliLogProb (p : BernoulliParams K) (action : Bool) : K :=
  if action then p.trueLogit else p.falseLogit

/-- `Bernoulli.entropy`, `bernoulli.py:193-201`. -/
def bernoulliEntropy (p : BernoulliParams K) : K :=
  -p.probability * p.trueLogit - (1 - p.probability) * p.falseLogit

/-- `Bernoulli.kl_divergence`, `bernoulli.py:203-215`. -/
def bernoulliKl (p q : BernoulliParams K) : K :=
  p.probability * (p.trueLogit - q.trueLogit) +
    (1 - p.probability) * (p.falseLogit - q.falseLogit)

/-! ### Categorical, integer actions -/

/-- Parameters of `categorical.py:243-252`; the temperature is 1 if there is none. -/
structure CategoricalParams (K : Type) where
  probabilities : List K
  temperature : K
  logits : List K
  actionValues : List K
  stateValue : K

/-- `Categorical.parametrize`, `categorical.py:171-252`.  `rawTemperature` is the output of the
temperature layer or variable, `none` if `temperature_mode` is `None`. -/
def categoricalParams (f : Fns K) (rawTemperature : Option K) (mask : Option (List Bool))
    (actionValues : List K) : CategoricalParams K :=
  let temperature := match rawTemperature with
    | none => 1
    | some x => softplusScale f x
  let logits := match rawTemperature with
    | none => actionValues
    | some _ => actionValues.map fun v => v / temperature
  let stateValue := match rawTemperature with
    | none => logsumexp f logits
    | some _ => temperature * logsumexp f logits
  let probabilities := softmax f (applyMask mask logits)
  { probabilities := probabilities
    temperature := temperature
    logits := probabilities.map fun p => f.log (p + eps)
    actionValues := applyMask mask actionValues
    stateValue := stateValue }

/-- `Categorical.mode`, `categorical.py:299-301`. -/
def categoricalMode (p : CategoricalParams K) : Nat := argmax p.actionValues

/-- Gumbel noise from a uniform random number, `categorical.py:368`. -/
def gumbel (f : Fns K) (u : K) : K := -f.log (-f.log u)

/-- `temp_logits` of `categorical.py:358-359`. -/
def tempLogits (p : CategoricalParams K) (temperature : K) : List K :=
  List.zipWith (fun prob logit => if prob < eps then floatMin else logit / (temperature + eps))
    p.probabilities p.logits

/-- `Categorical.sample`, `categorical.py:348-373`; `us` are the uniform random numbers. -/
def categoricalSample (f : Fns K) (p : CategoricalParams K) (temperature : K) (us : List K) : Nat :=
  if temperature < eps then
    argmax p.actionValues
  else
    argmax (List.zipWith (· + ·) (tempLogits p temperature) (us.map (gumbel f)))

/-- `Categorical.log_probability`, `categorical.py:375-382`; `none` for an action out of range. -/
def categoricalLogProb (p : CategoricalParams K) (action : Nat) : Option K := p.logits[action]?

/-- `Categorical.entropy`, `categorical.py:384-388`. -/
def categoricalEntropy (p : CategoricalParams K) : K :=
  -(List.zipWith (· * ·) p.probabilities p.logits).sum

/-- `Categorical.kl_divergence`, `categorical.py:390-397`. -/
def categoricalKl (p q : CategoricalParams K) : K :=
  (List.zipWith (· * ·) p.probabilities (List.zipWith (· - ·) p.logits q.logits)).sum

/-! ### Gaussian, float actions -/

/-- `bounded_transform` argument, `gaussian.py:63-69`. -/
inductive Transform where
  | clipping
  | tanh
  deriving DecidableEq

/-- `Gaussian.__init__`, `gaussian.py:63-79`: the transformation in use.  `error` for `tanh` with a
one-sided bounded action, `ok none` for an unbounded action. -/
def gaussianTransform (given : Option Transform) (lo hi : Option K) :
    Except Unit (Option Transform) :=
  let t := given.getD .tanh
  if t = .tanh ∧ lo.isSome ≠ hi.isSome then .error ()
  else if lo.isNone ∧ hi.isNone then .ok none
  else .ok (some t)

/-- Parameters of `gaussian.py:185`. -/
structure GaussianParams (K : Type) where
  mean : K
  stddev : K
  logStddev : K

/-- `Gaussian.parametrize`, `gaussian.py:143-185`. -/
def gaussianParams (f : Fns K) (lo hi : Option K) (mean rawStddev : K) : GaussianParams K :=
  let stddev := softplusScale f rawStddev
  let stddev := if lo.isSome ∧ hi.isSome then stddev * (1 / 4) else stddev
  { mean := mean, stddev := stddev, logStddev := f.log (stddev + eps) }

/-- Bounded transformation, `gaussian.py:219-241` and `gaussian.py:287-309`. -/
def bound (f : Fns K) (transform : Option Transform) (lo hi : Option K) (action : K) : K :=
  match transform with
  | none => action
  | some t =>
    let action := match t with
      | .tanh => f.tanh action
      | .clipping => clip action (-1) 1
    match lo, hi with
    | some l, some h => l + (h - l) * (1 / 2) * (action + 1)
    | some l, none => max l action
    | none, some h => min h action
    | none, none => action

/-- Inverse bounded transformation, `gaussian.py:317-329` and `gaussian.py:375-387`. -/
def unbound (f : Fns K) (transform : Option Transform) (lo hi : Option K) (action : K) : K :=
  match transform with
  | none => action
  | some t =>
    let action := match lo, hi with
      | some l, some h => 2 * (action - l) / (h - l) - 1
      | _, _ => action
    match t with
    | .tanh => f.atanh (clip action (-(1 - eps)) (1 - eps))
    | .clipping => action

/-- `Gaussian.mode`, `gaussian.py:216-243`. -/
def gaussianMode (f : Fns K) (transform : Option Transform) (lo hi : Option K)
    (p : GaussianParams K) : K :=
  bound f transform lo hi p.mean

/-- `Gaussian.sample`, `gaussian.py:274-311`; `z` is the normal random number. -/
def gaussianSample (f : Fns K) (transform : Option Transform) (lo hi : Option K)
    (p : GaussianParams K) (temperature z : K) : K :=
  bound f transform lo hi
    (if temperature < eps then p.mean else p.mean + p.stddev * temperature * z)

/-- `Gaussian.log_probability`, `gaussian.py:313-344`; `halfLogTwoPi` is the constant
`0.5 * log(2 * pi)`. -/
def gaussianLogProb (f : Fns K) (halfLogTwoPi : K) (transform : Option Transform)
    (lo hi : Option K) (p : GaussianParams K) (action : K) : K :=
  let action := unbound f transform lo hi action
  let logProb := -(1 / 2) * (action - p.mean) ^ 2 / (p.stddev ^ 2 + eps) - p.logStddev -
    halfLogTwoPi
  match transform with
  | some .tanh => logProb - 2 * (f.log 2 - action - f.softplus (-2 * action))
  | _ => logProb

/-- `Gaussian.kl_divergence`, `gaussian.py:356-369`. -/
def gaussianKl (p q : GaussianParams K) : K :=
  (q.logStddev - p.logStddev) +
    1 / 2 * (p.stddev ^ 2 + (p.mean - q.mean) ^ 2) / (q.stddev ^ 2 + eps) - 1 / 2

/-! ### Beta, bounded float actions -/

/-- Parameters of `beta.py:134`. -/
structure BetaParams (K : Type) where
  alpha : K
  beta : K
  alphaBeta : K
  logNorm : K

/-- `Beta.parametrize`, `beta.py:105-134`. -/
def betaParams (f : Fns K) (x y : K) : BetaParams K :=
  let alpha := f.exp (clip x (f.log eps) (-f.log eps)) + 1
  let beta := f.exp (clip y (f.log eps) (-f.log eps)) + 1
  { alpha := alpha, beta := beta, alphaBeta := alpha + beta
    logNorm := f.lgamma alpha + f.lgamma beta - f.lgamma (alpha + beta) }

/-- `Beta.mode`, `beta.py:165-171`. -/
def betaMode (lo hi : K) (p : BetaParams K) : K := lo + (hi - lo) * (p.beta / p.alphaBeta)

/-- `Beta.sample`, `beta.py:204-222`; `g` and `h` are the two gamma random numbers. -/
def betaSample (lo hi : K) (p : BetaParams K) (temperature g h : K) : K :=
  lo + (hi - lo) * (if temperature < eps then p.beta / p.alphaBeta else h / (g + h))

/-- Argument of the logarithms in `Beta.log_probability`, `beta.py:228-231`. -/
def betaUnit (lo hi action : K) : K := (action - lo) / (hi - lo)

/-- `Beta.log_probability`, `beta.py:224-237`; `tf.math.xlogy` is 0 where its first argument is. -/
def betaLogProb (f : Fns K) (lo hi : K) (p : BetaParams K) (action : K) : K :=
  let a := betaUnit lo hi action
  (if p.beta - 1 = 0 then 0 else (p.beta - 1) * f.log (a + eps)) +
    (p.alpha - 1) * f.log (1 + (-a + eps)) - p.logNorm

/-- `Beta.kl_divergence`, `beta.py:256-273`. -/
def betaKl (f : Fns K) (p q : BetaParams K) : K :=
  q.logNorm - p.logNorm - f.digamma p.beta * (q.beta - p.beta) -
    f.digamma p.alpha * (q.alpha - p.alpha) +
    f.digamma p.alphaBeta * (q.alphaBeta - p.alphaBeta)

/-! ### The policy -/

/-- Distribution of one action component, with the parts of its specification in use. -/
inductive ActionDist (K : Type) where
  | bernoulli
  | categorical (withTemperature : Bool)
  | gaussian (transform : Option Transform) (lo hi : Option K)
  | beta (lo hi : K)

/-- Specification of one action component, with the mask of an integer action. -/
inductive Space (K : Type) where
  | bool
  | int (num : Nat) (mask : Option (List Bool))
  | float (lo hi : Option K)

/-- `ParametrizedDistributions.__init__`, `parametrized_distributions.py:87-130`, without a
`distributions` argument: the distribution of an action component, `error` if its constructor
fails.  `categorical` has no temperature by default, `categorical.py:43`; `beta` asserts that both
bounds are given, `beta.py:36-37`. -/
def defaultDist (useBeta : Bool) : Space K → Except Unit (ActionDist K)
  | .bool => .ok .bernoulli
  | .int _ _ => .ok (.categorical false)
  | .float lo hi =>
    if useBeta && lo.isSome then
      match lo, hi with
      | some l, some h => .ok (.beta l h)
      | _, _ => .error ()
    else
      match gaussianTransform none lo hi with
      | .ok t => .ok (.gaussian t lo hi)
      | .error () => .error ()

/-- Network outputs for one action component and, for an integer action, its mask. -/
structure Outputs (K : Type) where
  first : K
  second : K
  values : List K
  mask : Option (List Bool)

/-- Random numbers for one action component. -/
structure Noise (K : Type) where
  first : K
  second : K
  values : List K

/-- Value of one action component. -/
inductive Action (K : Type) where
  | bool (b : Bool)
  | int (n : Nat)
  | float (x : K)
  deriving DecidableEq

/-- `distribution.parametrize` followed by `distribution.mode`,
`parametrized_distributions.py:187-198`. -/
def ActionDist.mode (f : Fns K) : ActionDist K → Outputs K → Action K
  | .bernoulli, x => .bool (bernoulliMode (bernoulliParams f x.first))
  | .categorical t, x =>
    .int (categoricalMode
      (categoricalParams f (if t then some x.first else none) x.mask x.values))
  | .gaussian t lo hi, x =>
    .float (gaussianMode f t lo hi (gaussianParams f lo hi x.first x.second))
  | .beta lo hi, x => .float (betaMode lo hi (betaParams f x.first x.second))

/-- `distribution.parametrize` followed by `distribution.sample`,
`parametrized_distributions.py:200-233`. -/
def ActionDist.sample (f : Fns K) : ActionDist K → Outputs K → K → Noise K → Action K
  | .bernoulli, x, t, z => .bool (bernoulliSample f (bernoulliParams f x.first) t z.first)
  | .categorical w, x, t, z =>
    .int (categoricalSample f
      (categoricalParams f (if w then some x.first else none) x.mask x.values) t z.values)
  | .gaussian tr lo hi, x, t, z =>
    .float (gaussianSample f tr lo hi (gaussianParams f lo hi x.first x.second) t z.first)
  | .beta lo hi, x, t, z =>
    .float (betaSample lo hi (betaParams f x.first x.second) t z.first z.second)

/-- `temperature` argument of a stochastic policy, `stochastic_policy.py:28-29`. -/
inductive Temperature (K : Type) where
  | shared (t : K)
  | perAction (ts : List (String × K))

/-- `StochasticPolicy.__init__`, `stochastic_policy.py:53-74`, with constant parameters: the
temperature of the action called `name`.  `none` stands for no `temperature` argument.  A
dictionary with a key which is no action name is taken for a parameter specification, which is not
modelled: `error`. -/
def temperatureOf (given : Option (Temperature K)) (actions : List String) (name : String) :
    Except Unit K :=
  match given with
  | none => .ok 1
  | some (.shared t) => .ok t
  | some (.perAction ts) =>
    if ts.all fun e => actions.contains e.1 then .ok ((ts.lookup name).getD 0) else .error ()

/-- One action component of the policy: its name, distribution, network outputs and random
numbers. -/
structure Component (K : Type) where
  name : String
  dist : ActionDist K
  outputs : Outputs K
  noise : Noise K

/-- `ParametrizedDistributions.act`, `parametrized_distributions.py:172-237`: `tf.cond` on
`deterministic` between `fn_mode` and `fn_sample`. -/
def act (f : Fns K) (temperature : String → K) (deterministic : Bool) (cs : List (Component K)) :
    List (String × Action K) :=
  cs.map fun c =>
    (c.name, if deterministic then c.dist.mode f c.outputs
      else c.dist.sample f c.outputs (temperature c.name) c.noise)

end Verif.Policy
