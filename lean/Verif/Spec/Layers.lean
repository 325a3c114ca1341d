import Verif.Model.Layers

/-
Separate stores (C70).
-/

namespace Zanzi.Spec

open Layers

/-- Two stores are separate: no write through one changes what is read through the other, whatever is stored. -/
def Separate (β : Type) (p q : List Char) : Prop :=
  ∀ (b : Base β) (k : List Char) (v : Option β), wrap q (write p k v b) = wrap q b ∧ wrap p (write q k v b) = wrap p b

end Zanzi.Spec
