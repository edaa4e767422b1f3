import Mathlib.Analysis.SpecialFunctions.Log.Basic
import Mathlib.Analysis.SpecialFunctions.Sqrt
import Mathlib.Analysis.SpecialFunctions.Trigonometric.DerivHyp
import Verif.Model.Score

/-!
# Mult-VAE (/repo/src/irspack/recommenders/multvae.py)

Over exact reals.  A batch is a list of rows, a row a function of the column.  Gradients, the optimiser
(`optax.adam`) and the random keys of haiku are external: `update` is an arbitrary function.
-/

namespace Irspack.MultVAE

open Irspack.Score

/-- `hk.Linear`: weights (input × output) and bias -/
structure Linear where
  nIn : Nat
  w : Nat → Nat → ℝ
  b : Nat → ℝ

noncomputable def Linear.apply (l : Linear) (x : Nat → ℝ) : Nat → ℝ :=
  fun o => (∑ i ∈ Finset.range l.nIn, x i * l.w i o) + l.b o

/-- `BaseMLP` (multvae.py:22-41): hidden layers with `tanh`, then a linear layer. -/
noncomputable def mlp (hidden : List Linear) (last : Linear) (x : Nat → ℝ) : Nat → ℝ :=
  last.apply (hidden.foldl (fun h l => fun o => Real.tanh (l.apply h o)) x)

/-- `jax.nn.log_softmax(…, axis=1)` over `n` items (multvae.py:50) -/
noncomputable def logSoftmax (n : Nat) (x : Nat → ℝ) : Nat → ℝ :=
  fun j => x j - Real.log (∑ i ∈ Finset.range n, Real.exp (x i))

/-- `l2_normalize` (multvae.py:53-54) -/
noncomputable def l2Normalize (n : Nat) (x : Nat → ℝ) : Nat → ℝ :=
  fun j => x j / Real.sqrt ((∑ i ∈ Finset.range n, x i ^ 2) + 1e-8)

/-- The parameters of encoder and decoder, and the dimension of the latent space. -/
structure Params where
  latent : Nat
  encHidden : List Linear
  encLast : Linear
  decHidden : List Linear
  decLast : Linear

/-- `EncoderNN.__call__` after the dropout (multvae.py:66-76): the mean and the logarithm of the variance.
`drop` is what `hk.dropout` does to the normalised profile; it is the identity when not training. -/
noncomputable def encode (p : Params) (n : Nat) (drop : (Nat → ℝ) → Nat → ℝ) (x : Nat → ℝ) :
    (Nat → ℝ) × (Nat → ℝ) :=
  let h := mlp p.encHidden p.encLast (drop (l2Normalize n x))
  (h, fun j => h (p.latent + j))

/-- `DecoderNN.__call__` (multvae.py:49-50) -/
noncomputable def decode (p : Params) (n : Nat) (z : Nat → ℝ) : Nat → ℝ :=
  logSoftmax n (mlp p.decHidden p.decLast z)

/-- the `KL` of one row (multvae.py:114-116), before the mean over the batch -/
noncomputable def klRow (latent : Nat) (mu logVar : Nat → ℝ) : ℝ :=
  ∑ c ∈ Finset.range latent, 0.5 * (-logVar c + Real.exp (logVar c * 0.5) ^ 2 + mu c ^ 2 - 1)

/-- `MultVAE.__call__` with `train=False` (multvae.py:111-125): the scores of one profile -/
noncomputable def scoreRow (p : Params) (n : Nat) (x : Nat → ℝ) : Nat → ℝ :=
  decode p n (encode p n id x).1

/-- `jnp.mean` over the rows of a batch -/
noncomputable def mean (l : List ℝ) : ℝ := l.sum / l.length

/-- `loss_fn` with `train=True` (multvae.py:189-200) on a batch; each row comes with the dropout and the
noise `eps` drawn for it. -/
noncomputable def loss (p : Params) (n : Nat) (batch : List (Nat → ℝ))
    (noise : Nat → ((Nat → ℝ) → Nat → ℝ) × (Nat → ℝ)) (klCoeff : ℝ) : ℝ :=
  let rows := batch.mapIdx (fun k x =>
    let (mu, logVar) := encode p n (noise k).1 x
    let z := fun c => mu c + (noise k).2 c * Real.exp (logVar c * 0.5)
    (∑ j ∈ Finset.range n, decode p n z j * x j, klRow p.latent mu logVar))
  let negLL := -mean (rows.map (·.1))
  negLL + klCoeff * mean (rows.map (·.2))

/-! ## Minibatches -/

/-- `range(0, n, size)` for a positive `size` -/
def starts (n size : Nat) : List Nat := (List.range ((n + size - 1) / size)).map (· * size)

/-- the minibatches `l[a:min(n, a + size)]` for `a` in `range(0, n, size)`
(multvae.py:228-230, 243-249) -/
def minibatches (size : Nat) (l : List A) : List (List A) :=
  (starts l.length size).map (fun a => (l.take (min l.length (a + size))).drop a)

/-! ## The trainer -/

/-- The arguments of the trainer (multvae.py:129-150). -/
structure Config where
  goal : ℝ
  annealEnd : Nat
  size : Nat
  l2Regularizer : ℝ

/-- The state of `MultVAETrainer`: parameters, optimiser state, number of updates, number of keys taken
from `rng_seq`. -/
structure State (O : Type) where
  params : Params
  opt : O
  count : Nat
  keys : Nat

/-- `self.total_anneal_step` (multvae.py:161) -/
noncomputable def totalAnneal (cfg : Config) (nUsers : Nat) : ℝ :=
  ((cfg.annealEnd * nUsers : Nat) : ℝ) / cfg.size

open Classical in
/-- The constructor (multvae.py:129-174): a minibatch size of zero divides by zero.  `init` gives the
initial parameters, using one key. -/
noncomputable def create (cfg : Config) (init : Params) (opt : O) : Except Err (State O) :=
  if cfg.size = 0 then .error .zeroDivisionError else .ok ⟨init, opt, 0, 1⟩

/-- the row of the interaction matrix as a dense row (multvae.py:230, 249-251) -/
noncomputable def denseRow (r : SpVec ℝ) : Nat → ℝ := fun j => r.get j

open Classical in
/-- one round of the loop of `run_epoch` (multvae.py:243-261).  `_update_count / total_anneal_step`
divides by zero when there is nothing to anneal. -/
noncomputable def update (cfg : Config) (X : CSR ℝ)
    (upd : Params → Nat → O → List (Nat → ℝ) → ℝ → Params × O) (s : State O) (users : List Nat) :
    Except Err (State O) :=
  if totalAnneal cfg X.nrows = 0 then .error .zeroDivisionError
  else
    let kl := cfg.goal * min 1 (s.count / totalAnneal cfg X.nrows)
    let (p, o) := upd s.params s.keys s.opt (users.map (fun u => denseRow (X.row u))) kl
    .ok ⟨p, o, s.count + 1, s.keys + 1⟩

/-- `run_epoch` (multvae.py:240-261); `order` is the shuffled list of users. -/
noncomputable def runEpoch (cfg : Config) (X : CSR ℝ)
    (upd : Params → Nat → O → List (Nat → ℝ) → ℝ → Params × O) (order : List Nat) (s : State O) :
    Except Err (State O) :=
  (minibatches cfg.size order).foldlM (update cfg X upd) s

/-- `MultVAETrainer.get_score_cold_user` (multvae.py:224-238): one key is taken per minibatch (and not
used); a matrix with another number of columns does not fit the first layer (`ValueError`), and so
`np.concatenate` of no arrays.  The trainer was built for `nItems` items. -/
noncomputable def coldScores (cfg : Config) (nItems : Nat) (s : State O) (X : CSR ℝ) :
    Except Err (Dense ℝ × State O) :=
  if X.rows = [] then .error .valueError
  else if X.cols ≠ nItems then .error .valueError
  else
    let batches := minibatches cfg.size X.rows
    .ok (⟨nItems, batches.flatMap (fun b => b.map (fun r => scoreRow s.params nItems (denseRow r)))⟩,
      { s with keys := s.keys + batches.length })

/-- `MultVAERecommender` (multvae.py:374-380); `get_score_block` is not implemented.  The keys taken from
`rng_seq` by scoring are left out. -/
noncomputable def recommender (cfg : Config) (X : CSR ℝ) (s : Option (State O)) : Recommender ℝ where
  X := X
  getScore users := do
    let x ← pickRows X users
    let t ← fitted s
    let r ← coldScores cfg X.cols t x
    return r.1
  getScoreBlock := defaultBlock
  getScoreColdUser x := do
    let t ← fitted s
    let r ← coldScores cfg X.cols t x
    return r.1

/-- `save_state` then `load_state` (multvae.py:263-267): only the parameters are kept. -/
def loadParams (p : Params) (s : State O) : State O := { s with params := p }

end Irspack.MultVAE
