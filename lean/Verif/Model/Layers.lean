import Verif.Model.Go

/-
Model of how /repo/internal/store/kv_store/kv_store.go:15-66 lays its stores out in one key-value store.  raccoondb is not available: its wrapper is taken to put the prefix before
the key (with nothing between).  Keys are characters; UTF-8 encodes distinct characters by byte strings none of which begins another.
-/

namespace Zanzi.Layers

/-- The base key-value store. -/
abbrev Base (β : Type) := List Char → Option β

/-- `rcdb.NewWrapperKV(store, prefix)`: reading. -/
def wrap {β : Type} (pre : List Char) (b : Base β) : Base β := fun k => b (pre ++ k)

/-- `rcdb.NewWrapperKV(store, prefix)`: writing, `none` deletes. -/
def write {β : Type} (pre : List Char) (k : List Char) (v : Option β) (b : Base β) : Base β :=
  fun x => if x = pre ++ k then v else b x

/-- kv_store.go:15-20, 24-36. -/
def policyPrefix : List Char := ['1']
/-- kv_store.go:17, 34. -/
def relationshipPrefix : List Char := ['2']
/-- kv_store.go:18, 35; the data store of every policy is this one (59-66). -/
def dataPrefix : List Char := ['3']

/-- The prefix of the relationships of a policy: a wrapper inside a wrapper — kv_store.go:47-57. -/
def policyEdges (policyId : List Char) : List Char := relationshipPrefix ++ policyId

end Zanzi.Layers
