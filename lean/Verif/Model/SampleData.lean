import Mathlib.Analysis.SpecialFunctions.Exp
import Mathlib.Analysis.SpecialFunctions.Sqrt
import Mathlib.Algebra.BigOperators.Group.List.Basic

/-!
# Synthetic data (/repo/src/irspack/utils/sample_data.py)

Over exact reals.  The normal draws and the binomial draws of numpy are arguments.  The mean over no
entries (NaN in numpy, for zero users or items) is 0 here; the matrix has no entries then.
-/

namespace Irspack.SampleData

/-- `scipy.special.expit` -/
noncomputable def expit (x : ℝ) : ℝ := 1 / (1 + Real.exp (-x))

/-- `(user_factors.dot(item_factors.T))[u, i]` with the factors `randn / n_components ** 0.5`
(sample_data.py:16-17, 22). -/
noncomputable def affinity (nComp : Nat) (gu gi : Nat → Nat → ℝ) (u i : Nat) : ℝ :=
  ((List.range nComp).map (fun c => gu u c / Real.sqrt nComp * (gi i c / Real.sqrt nComp))).sum

/-- `all_scores.ravel()` (sample_data.py:22, 24) -/
noncomputable def ravel (nUsers nItems : Nat) (a : Nat → Nat → ℝ) : List ℝ :=
  (List.range nUsers).flatMap (fun u => (List.range nItems).map (fun i => a u i))

/-- `expit(all_scores.ravel() + bias).mean()` (sample_data.py:24) -/
noncomputable def expectedDensity (scores : List ℝ) (bias : ℝ) : ℝ :=
  (scores.map (fun s => expit (s + bias))).sum / scores.length

/-- The loop (sample_data.py:23-31) with at most `n` more rounds; `density` is the expected density at a
bias, `lo`, `hi`, `b` are `bias_min`, `bias_max`, `bias_try`.  The result is `bias_try`. -/
noncomputable def search (density : ℝ → ℝ) (target : ℝ) : Nat → ℝ → ℝ → ℝ → ℝ
  | 0, _, _, b => b
  | n + 1, lo, hi, b =>
    let hi' := if density b > target then b else hi
    let lo' := if density b > target then lo else b
    if hi' - lo' < 1e-5 then b else search density target n lo' hi' ((hi' + lo') / 2)

/-- `bias_try` after the loop (sample_data.py:18-31). -/
noncomputable def bias (scores : List ℝ) (target : ℝ) : ℝ :=
  search (expectedDensity scores) target 100 (-100) 100 0

/-- `score` (sample_data.py:33): the probability of each entry. -/
noncomputable def probability (nUsers nItems nComp : Nat) (gu gi : Nat → Nat → ℝ) (target : ℝ)
    (u i : Nat) : ℝ :=
  expit (affinity nComp gu gi u i + bias (ravel nUsers nItems (affinity nComp gu gi)) target)

/-- `mf_example_data` (sample_data.py:8-34); `draw u i p` is what `rns.binomial(1, p)` draws for entry
`(u, i)`. -/
noncomputable def mfExampleData (nUsers nItems nComp : Nat) (gu gi : Nat → Nat → ℝ) (target : ℝ)
    (draw : Nat → Nat → ℝ → Bool) : List (List Bool) :=
  (List.range nUsers).map (fun u => (List.range nItems).map (fun i =>
    draw u i (probability nUsers nItems nComp gu gi target u i)))

end Irspack.SampleData
