import Verif.Model.Policy

/-
The generated validators accept every message.
-/

namespace Zanzi

theorem forEach_all_ok {α : Type} {f : α → Res Unit} {l : List α} (h : ∀ a ∈ l, f a = .ok ()) : forEach f l = .ok () := by
  induction l with
  | nil => rfl
  | cons a l ih =>
    unfold forEach
    rw [h a (by simp)]
    exact ih fun b hb => h b (by simp [hb])

theorem validateOpt_ok {α : Type} {f : α → Res Unit} (h : ∀ a, f a = .ok ()) (o : Option α) : validateOpt f o = .ok () := by
  cases o with
  | none => rfl
  | some a => exact h a

theorem ExprTree.validate_ok (t : ExprTree) : t.validate = .ok () := by
  induction t with
  | nil => rfl
  | unset => rfl
  | rule r => cases r <;> rfl
  | op l o r h1 h2 => simp only [ExprTree.validate, h1, Res.bind_ok, h2]

theorem Relation.validate_ok (d : Relation) : d.validate = .ok () := by
  unfold Relation.validate
  rw [validateOpt_ok (fun e => ?_) d.relationExpression, Res.bind_ok, validateOpt_ok (fun sr => ?_)]
  · cases sr with
    | restrictionSet rs => exact forEach_all_ok fun x _ => by cases x <;> rfl
    | _ => rfl
  · cases e with
    | tree t => exact t.validate_ok
    | _ => rfl

theorem requiredFieldsPresent_ok (p : Policy) : requiredFieldsPresent p = .ok () :=
  forEach_all_ok fun r _ => forEach_all_ok fun d _ => d.validate_ok

theorem relRequiredFields_ok (r : Option Relationship) : relRequiredFields r = .ok () := by
  have : validateOpt Relationship.validate r = .ok () := by
    refine validateOpt_ok (fun r => ?_) r
    unfold Relationship.validate
    rw [validateOpt_ok (f := Entity.validate) (fun _ => rfl), Res.bind_ok, validateOpt_ok (fun s => ?_)]
    cases s with
    | entitySet e rel => exact validateOpt_ok (f := Entity.validate) (fun _ => rfl) e
    | _ => rfl
  unfold relRequiredFields
  rw [this]

end Zanzi
