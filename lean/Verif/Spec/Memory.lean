import Verif.Model.Memory

/-!
# Specification vocabulary for C70: what the caller's code does by itself
-/

namespace Irspack.Memory

open Irspack Irspack.Evaluation

section
variable {S : Type} [LinearOrder S] [OrderBot S]

/-- The memory after the iterable alone ran these steps, with nobody else writing. -/
def alone (gens : List (Step S)) (st : Store S) : Store S := gens.foldl (fun s g => (g s).1) st

/-- The object as a value: what the array holds while the memory is `st`. -/
def contents (st : Store S) : Obj → Chunk S
  | .other => { isArray2d := false, nCols := 0, dtypeOk := false, rows := [] }
  | .array v ok =>
    { isArray2d := true, nCols := v.cols, dtypeOk := ok
      rows := (List.range v.rows).map (fun i j => st v.buf (v.pos i j)) }

/-- The iterable, running alone from memory `st`, yields all its objects without raising; `cs` are
their contents at the moments they are yielded. -/
inductive Delivers : List (Step S) → Store S → List (Chunk S) → Prop
  | nil (st : Store S) : Delivers [] st []
  | cons {g : Step S} {gens : List (Step S)} {st st' : Store S} {o : Obj} {cs : List (Chunk S)} :
      g st = (st', .ok o) → Delivers gens st' cs → Delivers (g :: gens) st (contents st' o :: cs)

/-- No two entries of the array share an address. -/
def Distinct (v : View) : Prop := ∀ i j k l, v.pos i j = v.pos k l → i = k ∧ j = l

/-- The stored entries of the mask lie in its shape. -/
def InShape (mask : Option Mask) (nItems : Nat) : Prop :=
  ∀ msk, mask = some msk → ∀ u i, msk.nz u i = true → i < nItems

/-- Two memories hold the same in the buffers `kept`. -/
def SameOn (kept : Nat → Prop) (st st' : Store S) : Prop := ∀ b, kept b → st b = st' b

/-- A recommender whose scoring methods hand out arrays nobody keeps: as long as the buffers `kept`
hold what they hold in `st₀`, a call leaves them so, raises or answers what `r` says, and the answer
lies in another buffer. -/
def HandsOutNew (kept : Nat → Prop) (st₀ : Store S) (model : Model S) (r : Recommender S) : Prop :=
  model.nUsers = r.nUsers ∧ model.nItems = r.nItems ∧ model.trainNz = r.trainNz ∧
  (∀ u i, r.trainNz u i = true → i < r.nItems) ∧
  ∀ (call : Store S → Store S × Except Err View) (answer : Except Err (List (ScoreRow S))),
    ((∃ a b, call = model.getScoreBlock a b ∧ answer = r.getScoreBlock a b) ∨
      (∃ users, call = model.getScore users ∧ answer = r.getScore users)) →
    ∀ st, SameOn kept st st₀ → SameOn kept (call st).1 st₀ ∧
      match (call st).2, answer with
      | .ok v, .ok rows => ¬ kept v.buf ∧ v.cols = r.nItems ∧ Distinct v ∧ v.read (call st).1 = rows
      | .error e, .error e' => e = e'
      | _, _ => False

end
end Irspack.Memory
