import Mathlib.Data.Rat.Defs
import Verif.Model.Basic

/-!
# The recommender classes, their configurations and default tuning ranges

(/repo/src/irspack/recommenders/base.py:56-117, 509-521 and the classes named below, in
/repo/src/irspack/recommenders.)

A recommender is described by the parameters its constructor accepts, with their defaults, by the fields of its
configuration class, with their defaults, by the checks of the constructor that look at a parameter alone, and by
its default tuning range.

Simplifications: arguments are given by name and have the declared type (pydantic converts or rejects others);
matrices of features cannot be given; checks that involve the data are left out.  The value of `n_threads` is
resolved by `get_n_threads` (`Model/Threads`), and is kept here as it was given.
-/

namespace Irspack.RecClasses

/-- argument values -/
inductive Val where
  | none
  | bool (b : Bool)
  | num (q : ℚ)
  | str (s : String)
  deriving DecidableEq

/-- arguments by name -/
abbrev Args := List (String × Val)

/-- a range of values to try (/repo/src/irspack/optimization/parameter_range.py:20-97): integers and reals
including both ends, uniform or logarithmic, or a list -/
inductive Range where
  | int (lo hi : ℤ)
  | float (lo hi : ℚ)
  | cat (values : List Val)
  deriving DecidableEq

/-- a check of a constructor: the parameter, the strings allowed (`upperOneOf`: after `.upper()`), and the error
otherwise.  Simplification: `.upper()` is that of ASCII letters. -/
inductive Check where
  | oneOf (name : String) (values : List String) (e : Err)
  | upperOneOf (name : String) (values : List String) (e : Err)
  deriving DecidableEq

/-- a recommender class -/
structure RecClass where
  name : String
  /-- the name of `config_class` -/
  config : String
  /-- the classes it is derived from -/
  bases : List String
  /-- the fields of the configuration -/
  fields : Args
  /-- fields restricted to `Literal[…]` -/
  literals : List (String × List String) := []
  /-- the parameters of the constructor -/
  params : Args
  /-- its checks, in order -/
  checks : List Check := []
  /-- `default_tune_range` -/
  tune : List (String × Range)
  deriving DecidableEq

/-! ## The classes -/

/-- `BPRFMRecommender` (bpr.py:52-57, 100-105, 107-116; checks bpr.py:124-125) -/
def bprfm : RecClass where
  name := "BPRFMRecommender"
  config := "BPRFMConfig"
  bases := ["BaseEarlyStoppingRecommenderConfig", "RecommenderConfig"]
  fields := [("train_epochs", .num 512), ("n_components", .num 128),
    ("item_alpha", .num (1 / 1000000000)), ("user_alpha", .num (1 / 1000000000)),
    ("loss", .str "bpr"), ("n_threads", .none)]
  params := [("n_components", .num 128), ("item_alpha", .num (1 / 1000000000)),
    ("user_alpha", .num (1 / 1000000000)), ("loss", .str "bpr"), ("n_threads", .none),
    ("train_epochs", .num 128)]
  tune := [("n_components", .int 4 256), ("item_alpha", .float (1 / 1000000000) (1 / 100)),
    ("user_alpha", .float (1 / 1000000000) (1 / 100)),
    ("loss", .cat [.str "bpr", .str "warp"])]
  checks := [.oneOf "loss" ["bpr", "warp"] .valueError]

/-- `DenseSLIMRecommender` (dense_slim.py:11-12, 31-31, 34-35) -/
def denseSlim : RecClass where
  name := "DenseSLIMRecommender"
  config := "DenseSLIMConfig"
  bases := ["RecommenderConfig"]
  fields := [("reg", .num 1)]
  params := [("reg", .num 1)]
  tune := [("reg", .float 1 10000)]

/-- `EDLAERecommender` (edlae.py:11-13, 34-37, 41-44) -/
def edlae : RecClass where
  name := "EDLAERecommender"
  config := "EDLAEConfig"
  bases := ["RecommenderConfig"]
  fields := [("reg", .num 1), ("dropout_p", .num (1 / 10))]
  params := [("reg", .num 1), ("dropout_p", .num (1 / 10))]
  tune := [("reg", .float 1 10000), ("dropout_p", .float 0 (99 / 100))]

/-- `IALSRecommender` (ials.py:211-229, 357-361, 363-389; checks ials.py:46-55, 400, 404, 409) -/
def ials : RecClass where
  name := "IALSRecommender"
  config := "IALSConfig"
  bases := ["BaseEarlyStoppingRecommenderConfig", "RecommenderConfig"]
  fields := [("train_epochs", .num 16), ("n_components", .num 20), ("alpha0", .num 1),
    ("reg", .num (1 / 1000)), ("nu", .num 1), ("confidence_scaling", .str "none"),
    ("epsilon", .num 1), ("init_std", .num (1 / 10)), ("solver_type", .str "CG"),
    ("max_cg_steps", .num 3), ("loss_type", .str "IALSPP"), ("nu_star", .none),
    ("random_seed", .num 42), ("n_threads", .none),
    ("prediction_time_max_cg_steps", .num 5), ("lambda_user_feature", .num 0),
    ("lambda_item_feature", .num 0), ("feature_warmup_epochs", .num 0)]
  params := [("n_components", .num 20), ("alpha0", .num 0), ("reg", .num (1 / 1000)),
    ("nu", .num 1), ("confidence_scaling", .str "none"), ("epsilon", .num 1),
    ("init_std", .num (1 / 10)), ("solver_type", .str "CG"), ("max_cg_steps", .num 3),
    ("ialspp_subspace_dimension", .num 64), ("loss_type", .str "IALSPP"),
    ("nu_star", .none), ("random_seed", .num 42), ("n_threads", .none),
    ("train_epochs", .num 16), ("prediction_time_max_cg_steps", .num 5),
    ("prediction_time_ialspp_iteration", .num 7), ("user_features", .none),
    ("item_features", .none), ("lambda_user_feature", .num 0),
    ("lambda_item_feature", .num 0), ("feature_warmup_epochs", .num 0)]
  tune := [("n_components", .int 4 300), ("alpha0", .float (3 / 1000) 1),
    ("reg", .float (1 / 10000) (1 / 10))]
  checks := [.oneOf "confidence_scaling" ["none", "log"] .keyError,
    .upperOneOf "solver_type" ["CHOLESKY", "CG", "IALSPP"] .attributeError,
    .upperOneOf "loss_type" ["ORIGINAL", "IALSPP"] .attributeError]
  literals := [("solver_type", ["CG", "CHOLESKY"]), ("loss_type", ["IALSPP", "ORIGINAL"])]

/-- `CosineKNNRecommender` (knn.py:89-90, 131-133, 135-146; checks knn.py:50) -/
def cosineKnn : RecClass where
  name := "CosineKNNRecommender"
  config := "CosineKNNConfig"
  bases := ["BaseCosineKNNConfig", "BaseKNNConfig", "RecommenderConfig"]
  fields := [("shrinkage", .num 0), ("top_k", .num 100), ("n_threads", .none),
    ("feature_weighting", .str "NONE"), ("bm25_k1", .num (6 / 5)),
    ("bm25_b", .num (3 / 4)), ("normalize", .bool false)]
  params := [("shrinkage", .num 0), ("normalize", .bool false), ("top_k", .num 100),
    ("feature_weighting", .str "NONE"), ("bm25_k1", .num (6 / 5)),
    ("bm25_b", .num (3 / 4)), ("n_threads", .none)]
  tune := [("top_k", .int 4 1000), ("shrinkage", .float 0 1000),
    ("feature_weighting", .cat [.str "NONE", .str "TF_IDF", .str "BM_25"]),
    ("normalize", .cat [.bool false, .bool true])]
  checks := [.oneOf "feature_weighting" ["NONE", "TF_IDF", "BM_25"] .valueError]

/-- `AsymmetricCosineKNNRecommender` (knn.py:164-165, 203-205, 207-217; checks knn.py:50) -/
def asymmetricCosineKnn : RecClass where
  name := "AsymmetricCosineKNNRecommender"
  config := "AsymmetricCosineKNNConfig"
  bases := ["BaseCosineKNNConfig", "BaseKNNConfig", "RecommenderConfig"]
  fields := [("shrinkage", .num 0), ("top_k", .num 100), ("n_threads", .none),
    ("feature_weighting", .str "NONE"), ("bm25_k1", .num (6 / 5)),
    ("bm25_b", .num (3 / 4)), ("alpha", .num (1 / 2))]
  params := [("shrinkage", .num 0), ("alpha", .num (1 / 2)), ("top_k", .num 100),
    ("feature_weighting", .str "NONE"), ("bm25_k1", .num (6 / 5)),
    ("bm25_b", .num (3 / 4)), ("n_threads", .none)]
  tune := [("top_k", .int 4 1000), ("shrinkage", .float 0 1000),
    ("feature_weighting", .cat [.str "NONE", .str "TF_IDF", .str "BM_25"]),
    ("alpha", .float 0 1)]
  checks := [.oneOf "feature_weighting" ["NONE", "TF_IDF", "BM_25"] .valueError]

/-- `JaccardKNNRecommender` (knn.py:235-236, 260-260, 262-268) -/
def jaccardKnn : RecClass where
  name := "JaccardKNNRecommender"
  config := "JaccardKNNConfig"
  bases := ["BaseKNNConfig", "RecommenderConfig"]
  fields := [("shrinkage", .num 0), ("top_k", .num 100), ("n_threads", .none)]
  params := [("shrinkage", .num 0), ("top_k", .num 100), ("n_threads", .none)]
  tune := [("top_k", .int 4 1000), ("shrinkage", .float 0 1000)]

/-- `TverskyIndexKNNRecommender` (knn.py:275-277, 305-308, 310-318) -/
def tverskyKnn : RecClass where
  name := "TverskyIndexKNNRecommender"
  config := "TverskyIndexKNNConfig"
  bases := ["BaseKNNConfig", "RecommenderConfig"]
  fields := [("shrinkage", .num 0), ("top_k", .num 100), ("n_threads", .none),
    ("alpha", .num (1 / 2)), ("beta", .num (1 / 2))]
  params := [("shrinkage", .num 0), ("alpha", .num (1 / 2)), ("beta", .num (1 / 2)),
    ("top_k", .num 100), ("n_threads", .none)]
  tune := [("top_k", .int 4 1000), ("shrinkage", .float 0 1000), ("alpha", .float 0 2),
    ("beta", .float 0 2)]

/-- `MultVAERecommender` (multvae.py:281-290, 323-327, 329-342) -/
def multVae : RecClass where
  name := "MultVAERecommender"
  config := "MultVAEConfig"
  bases := ["BaseEarlyStoppingRecommenderConfig", "RecommenderConfig"]
  fields := [("train_epochs", .num 512), ("dim_z", .num 16), ("enc_hidden_dims", .num 256),
    ("dec_hidden_dims", .none), ("dropout_p", .num (1 / 2)), ("l2_regularizer", .num 0),
    ("kl_anneal_goal", .num (1 / 5)), ("anneal_end_epoch", .num 50),
    ("minibatch_size", .num 512), ("learning_rate", .num (1 / 1000))]
  params := [("dim_z", .num 16), ("enc_hidden_dims", .num 256), ("dec_hidden_dims", .none),
    ("dropout_p", .num (1 / 2)), ("l2_regularizer", .num 0),
    ("kl_anneal_goal", .num (1 / 5)), ("anneal_end_epoch", .num 50),
    ("minibatch_size", .num 512), ("train_epochs", .num 300),
    ("learning_rate", .num (1 / 1000))]
  tune := [("dim_z", .cat [.num 32, .num 64, .num 128, .num 256]),
    ("enc_hidden_dims", .cat [.num 128, .num 256, .num 512]),
    ("kl_anneal_goal", .cat [.num (1 / 10), .num (1 / 5), .num (2 / 5)])]

/-- `NMFRecommender` (nmf.py:16-21, 26-30, 32-40) -/
def nmf : RecClass where
  name := "NMFRecommender"
  config := "NMFConfig"
  bases := ["RecommenderConfig"]
  fields := [("n_components", .num 64), ("alpha", .num (1 / 100)), ("l1_ratio", .num (1 / 100)),
    ("beta_loss", .str "frobenius"), ("init", .none)]
  params := [("n_components", .num 64), ("alpha", .num (1 / 100)), ("l1_ratio", .num (1 / 100)),
    ("beta_loss", .str "frobenius"), ("init", .none)]
  tune := [("n_components", .int 4 512), ("alpha", .float (1 / 10000000000) (1 / 10)),
    ("l1_ratio", .float 0 1)]

/-- `P3alphaRecommender` (p3.py:11-15, 45-48, 52-59) -/
def p3alpha : RecClass where
  name := "P3alphaRecommender"
  config := "P3alphaConfig"
  bases := ["RecommenderConfig"]
  fields := [("alpha", .num 1), ("top_k", .none), ("normalize_weight", .bool false),
    ("n_threads", .none)]
  params := [("alpha", .num 1), ("top_k", .none), ("normalize_weight", .bool false),
    ("n_threads", .none)]
  tune := [("top_k", .int 10 1000), ("normalize_weight", .cat [.bool true, .bool false])]

/-- `RP3betaRecommender` (rp3.py:15-20, 52-56, 58-66) -/
def rp3beta : RecClass where
  name := "RP3betaRecommender"
  config := "RP3betaConfig"
  bases := ["RecommenderConfig"]
  fields := [("alpha", .num 1), ("beta", .num (3 / 5)), ("top_k", .none),
    ("normalize_weight", .bool false), ("n_threads", .none)]
  params := [("alpha", .num 1), ("beta", .num (3 / 5)), ("top_k", .none),
    ("normalize_weight", .bool false), ("n_threads", .none)]
  tune := [("top_k", .int 2 1000), ("beta", .float (1 / 100000) (1 / 2)),
    ("normalize_weight", .cat [.bool true, .bool false])]

/-- `SLIMRecommender` (slim.py:10-17, 52-55, 58-68) -/
def slim : RecClass where
  name := "SLIMRecommender"
  config := "SLIMConfig"
  bases := ["RecommenderConfig"]
  fields := [("alpha", .num (1 / 20)), ("l1_ratio", .num (1 / 100)), ("positive_only", .bool true),
    ("n_iter", .num 100), ("tol", .num (1 / 10000)), ("top_k", .none),
    ("n_threads", .none)]
  params := [("alpha", .num (1 / 20)), ("l1_ratio", .num (1 / 100)), ("positive_only", .bool true),
    ("n_iter", .num 100), ("tol", .num (1 / 10000)), ("top_k", .none),
    ("n_threads", .none)]
  tune := [("alpha", .float (1 / 100000) 1), ("l1_ratio", .float 0 1)]

/-- `TopPopRecommender` (toppop.py:10-11, 23-23, 28-29) -/
def topPop : RecClass where
  name := "TopPopRecommender"
  config := "TopPopConfig"
  bases := ["RecommenderConfig"]
  fields := []
  params := []
  tune := []

/-- `TruncatedSVDRecommender` (truncsvd.py:21-23, 46-46, 48-54) -/
def truncatedSvd : RecClass where
  name := "TruncatedSVDRecommender"
  config := "TruncatedSVDConfig"
  bases := ["RecommenderConfig"]
  fields := [("n_components", .num 4), ("random_seed", .num 0)]
  params := [("n_components", .num 4), ("random_seed", .num 0)]
  tune := [("n_components", .int 4 512)]

/-- `CosineUserKNNRecommender` (user_knn.py:77-78, 119-121, 123-133; checks user_knn.py:44) -/
def cosineUserKnn : RecClass where
  name := "CosineUserKNNRecommender"
  config := "CosineUserKNNConfig"
  bases := ["BaseUserKNNConfig", "RecommenderConfig"]
  fields := [("shrinkage", .num 0), ("top_k", .num 100), ("n_threads", .none),
    ("feature_weighting", .str "NONE"), ("bm25_k1", .num (6 / 5)),
    ("bm25_b", .num (3 / 4)), ("normalize", .bool true)]
  params := [("shrinkage", .num 0), ("normalize", .bool true), ("top_k", .num 100),
    ("feature_weighting", .str "NONE"), ("bm25_k1", .num (6 / 5)),
    ("bm25_b", .num (3 / 4)), ("n_threads", .none)]
  tune := [("top_k", .int 4 1000), ("shrinkage", .float 0 1000),
    ("feature_weighting", .cat [.str "NONE", .str "TF_IDF", .str "BM_25"]),
    ("normalize", .cat [.bool false, .bool true])]
  checks := [.oneOf "feature_weighting" ["NONE", "TF_IDF", "BM_25"] .valueError]

/-- `AsymmetricCosineUserKNNRecommender` (user_knn.py:151-152, 189-191, 193-203; checks user_knn.py:44) -/
def asymmetricCosineUserKnn : RecClass where
  name := "AsymmetricCosineUserKNNRecommender"
  config := "AsymmetricCosineUserKNNConfig"
  bases := ["BaseUserKNNConfig", "RecommenderConfig"]
  fields := [("shrinkage", .num 0), ("top_k", .num 100), ("n_threads", .none),
    ("feature_weighting", .str "NONE"), ("bm25_k1", .num (6 / 5)),
    ("bm25_b", .num (3 / 4)), ("alpha", .num (1 / 2))]
  params := [("shrinkage", .num 0), ("alpha", .num (1 / 2)), ("top_k", .num 100),
    ("feature_weighting", .str "NONE"), ("bm25_k1", .num (6 / 5)),
    ("bm25_b", .num (3 / 4)), ("n_threads", .none)]
  tune := [("top_k", .int 4 1000), ("shrinkage", .float 0 1000),
    ("feature_weighting", .cat [.str "NONE", .str "TF_IDF", .str "BM_25"]),
    ("alpha", .float 0 1)]
  checks := [.oneOf "feature_weighting" ["NONE", "TF_IDF", "BM_25"] .valueError]

/-- the recommenders of irspack (/repo/src/irspack/recommenders/__init__.py) -/
def all : List RecClass :=
  [bprfm, denseSlim, edlae, ials, cosineKnn, asymmetricCosineKnn, jaccardKnn,
   tverskyKnn, multVae, nmf, p3alpha, rp3beta, slim, topPop, truncatedSvd,
   cosineUserKnn, asymmetricCosineUserKnn]

/-- `__all__` of `irspack.recommenders` with all optional packages installed
(/repo/src/irspack/recommenders/__init__.py:28-88) -/
def exported : List String :=
  ["BaseRecommender", "BaseSimilarityRecommender", "BaseRecommenderWithEarlyStopping",
   "TopPopConfig", "TopPopRecommender", "P3alphaConfig", "P3alphaRecommender",
   "RP3betaConfig", "RP3betaRecommender", "DenseSLIMConfig", "DenseSLIMRecommender",
   "EDLAERecommender", "EDLAEConfig", "SLIMConfig", "SLIMRecommender", "IALSConfig", "IALSRecommender",
   "CosineKNNConfig", "CosineKNNRecommender", "JaccardKNNConfig", "JaccardKNNRecommender",
   "TverskyIndexKNNConfig", "TverskyIndexKNNRecommender",
   "AsymmetricCosineKNNConfig", "AsymmetricCosineKNNRecommender",
   "CosineUserKNNConfig", "CosineUserKNNRecommender",
   "AsymmetricCosineUserKNNConfig", "AsymmetricCosineUserKNNRecommender",
   "get_recommender_class", "TruncatedSVDRecommender", "TruncatedSVDConfig",
   "NMFRecommender", "NMFConfig", "MultVAEConfig", "MultVAERecommender",
   "BPRFMConfig", "BPRFMRecommender"]

/-! ## Constructing -/

/-- the value of an argument, or the default -/
def valueOf (given : Args) (name : String) (default : Val) : Val := (given.lookup name).getD default

/-- the checks of a constructor (bpr.py:124-125, knn.py:50, user_knn.py:44, ials.py:46-55, 400, 404, 409) -/
def Check.error (p : Args) : Check → Option Err
  | .oneOf name values e =>
    match p.lookup name with
    | some (.str s) => if s ∈ values then Option.none else some e
    | _ => some e
  | .upperOneOf name values e =>
    match p.lookup name with
    | some (.str s) => if s.toList.map Char.toUpper ∈ values.map String.toList then Option.none else some e
    | _ => some e

/-- `cls(X, **given)`: an argument that the constructor does not know is a `TypeError`; otherwise the parameters of
the recommender -/
def construct (c : RecClass) (given : Args) : Except Err Args :=
  if given.all (fun a => a.1 ∈ c.params.map (·.1)) then
    let p := c.params.map (fun d => (d.1, valueOf given d.1 d.2))
    match c.checks.findSome? (Check.error p) with
    | some e => .error e
    | none => .ok p
  else .error .typeError

/-- a configuration: the names of its class and of the classes it is derived from, and its values -/
structure Config where
  classes : List String
  values : Args

/-- a value of a field with `Literal[…]` -/
def allowed (values : List String) : Val → Bool
  | .str s => s ∈ values
  | _ => false

/-- `config_class(**given)` (base.py:56-58, pydantic): unknown names are forbidden, defaults are filled in;
a `ValidationError` is a `ValueError`. -/
def makeConfig (c : RecClass) (given : Args) : Except Err Config :=
  let values := c.fields.map (fun d => (d.1, valueOf given d.1 d.2))
  if given.all (fun a => a.1 ∈ c.fields.map (·.1)) then
    if c.literals.all (fun l => allowed l.2 (valueOf values l.1 .none)) then .ok ⟨c.config :: c.bases, values⟩
    else .error .valueError
  else .error .valueError

/-- `cls.from_config(X, config)` (base.py:107-117) -/
def fromConfig (c : RecClass) (config : Config) : Except Err Args :=
  if c.config ∈ config.classes then construct c config.values else .error .valueError

/-! ## Classes by name -/

/-- a class definition: name, `register_class`, the class -/
structure Definition (C : Type) where
  name : String
  register : Bool
  cls : C

/-- `RecommenderMeta.__new__` (base.py:61-77): the dictionary from names to classes, newest entry first -/
def define {C : Type} (table : List (String × C)) (d : Definition C) : List (String × C) :=
  if d.register then (d.name, d.cls) :: table else table

/-- `get_recommender_class` (base.py:509-521) after some class definitions -/
def getClass {C : Type} (history : List (Definition C)) (name : String) : Except Err C :=
  match (history.foldl define []).lookup name with
  | some c => .ok c
  | none => .error .keyError

end Irspack.RecClasses
