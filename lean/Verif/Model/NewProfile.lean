import Verif.Model.Retrieval
import Verif.Model.Score
import Verif.Model.MultVAE
import Verif.Model.IalsRecommender

/-!
# From a new user's profile to the rows that recommenders read
-/

namespace Irspack.NewProfile

open Retrieval

variable {I : Type} [DecidableEq I]

/-- The rows of a `csr_matrix((data, indices, indptr), shape)` as the stored entries that scipy's products and, through
nanobind's conversion, the extension module go through.  Nothing on the way adds up repeated entries
(id_mapping.py:126-129, 160-162; the conversion only sorts the indices of a row, which is left out). -/
def toCSR (c : CsrArrays) : CSR ℝ :=
  ⟨c.nCols, (List.range c.nRows).map (fun u =>
    ((c.indices.zip c.data).take (c.indptr.getD (u + 1) 0)).drop (c.indptr.getD u 0))⟩

/-- `list_of_user_profile_to_matrix` (id_mapping.py:102-129), which is what `recommend_for_new_user_batch` (172-223)
gives to the recommender -/
def newUsers (m : ItemIDMapper I) (ps : List (Profile I)) : CSR ℝ := toCSR (m.profilesToMatrix ps)

/-- the one-row matrix of `recommend_for_new_user` (id_mapping.py:159-162) -/
def newUser (m : ItemIDMapper I) (p : Profile I) : CSR ℝ :=
  toCSR ⟨(m.profileDataCol p).1, (m.profileDataCol p).2, [0, (m.profileDataCol p).2.length], 1, m.itemIds.length⟩

end Irspack.NewProfile
