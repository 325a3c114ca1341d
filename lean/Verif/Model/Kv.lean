import Verif.Model.Go

/-
Finite maps as association lists: Go maps, and the key-value engine below raccoondb.
Keys are listed in the order of `lt`; for Go maps, whose order is irrelevant here, `lt` is constantly false.
-/

namespace Zanzi

/-- Lookup. -/
def kvGet {K V : Type} [DecidableEq K] (m : List (K × V)) (k : K) : Option V :=
  match m with
  | [] => none
  | (k', v) :: m => if k' = k then some v else kvGet m k

/-- Insert a fresh key before the first larger key. -/
def kvInsert {K V : Type} (lt : K → K → Bool) (m : List (K × V)) (k : K) (v : V) : List (K × V) :=
  match m with
  | [] => [(k, v)]
  | (k', v') :: m => if lt k k' then (k, v) :: (k', v') :: m else (k', v') :: kvInsert lt m k v

/-- Write: replaces the value of an existing key, otherwise inserts. -/
def kvPut {K V : Type} [DecidableEq K] (lt : K → K → Bool) (m : List (K × V)) (k : K) (v : V) : List (K × V) :=
  if (kvGet m k).isSome then m.map (fun p => if p.1 = k then (k, v) else p)
  else kvInsert lt m k v

/-- Delete; deleting a missing key does nothing. -/
def kvDel {K V : Type} [DecidableEq K] (m : List (K × V)) (k : K) : List (K × V) :=
  m.filter (fun p => decide (p.1 ≠ k))

end Zanzi
