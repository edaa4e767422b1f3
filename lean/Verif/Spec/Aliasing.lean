import Verif.Model.Aliasing

/-!
# What it means to leave a matrix alone, and to be independent of it
-/

namespace Irspack.Spec.Aliasing

open Irspack.Aliasing

/-- Total stored in a row or column under an index. -/
noncomputable def total (l : Line) (i : Nat) : ℝ := ((l.filter (fun e => e.1 = i)).map Prod.snd).sum

/-- Entry `(u, i)` of the matrix that `X` is at this moment. -/
noncomputable def value (h : Heap) (X : Obj) (u i : Nat) : ℝ :=
  match X.fmt with
  | .csr => total ((X.lines h).getD u []) i
  | .csc => total ((X.lines h).getD i []) u

/-- The buffers of `X` exist and fit together, and there are as many lines as the shape says. -/
structure Valid (h : Heap) (X : Obj) : Prop where
  data : X.data < h.next
  idx : X.idx < h.next
  fits : List.Forall₂ (fun a b => a.length = b.length) (h.idx X.idx) (h.data X.data)
  shape : (h.idx X.idx).length = match X.fmt with | .csr => X.rows | .csc => X.cols

/-- No buffer that existed before has changed. -/
def Untouched (h h' : Heap) : Prop := ∀ a < h.next, h'.data a = h.data a ∧ h'.idx a = h.idx a

/-- The matrix `X` is the same as before. -/
def SameMatrix (h h' : Heap) (X : Obj) : Prop := ∀ u i, u < X.rows → i < X.cols → value h' X u i = value h X u i

/-- From now on the caller may write anything into the buffers below `n`; what is above stays. -/
def CallerWrites (n : Nat) (h h' : Heap) : Prop := ∀ a, n ≤ a → h'.data a = h.data a ∧ h'.idx a = h.idx a

end Irspack.Spec.Aliasing
