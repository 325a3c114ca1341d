import Verif.Lemmas.Serve
import Verif.Spec.Times
import Verif.Lemmas.Abstract
import Verif.Props.Store

/-
What any request does to the store.
-/

namespace Zanzi

open Spec

/-- The changes a request can make. -/
inductive Effect (env : Env) (s : Store) : Call → Store → Prop
  | same (c) : Effect env s c s
  | created {now d a} (p) : kvGet s.policies p.id = none → Effect env s (.createPolicy now d a) (s.putPolicy ⟨p, a, now⟩)
  | updated {d a} (p) (rec) : kvGet s.policies p.id = some rec → Effect env s (.updatePolicy d a) (s.putPolicy ⟨p, a, rec.createdAt⟩)
  | put {now pid r a} (e : IRel) (rec) : kvGet s.policies pid = some rec → Effect env s (.setRelationship now pid r a) (s.putRel env.H pid e a now)
  | del (c) (pid) (ks) : stamp c = none → Effect env s c (s.delRels pid ks)
  | delPolicy (id) : Effect env s (.deletePolicy id)
      (({ s with policies := kvDel s.policies id } : Store).delRels id ((relationships s id).map (relKey env.H)))

theorem serve_effect (env : Env) (c : Call) (s : Store) : Effect env s c (serve env c s).2 := by
  by_cases hok : ∃ a, (serve env c s).1 = .ok a
  · obtain ⟨ans, hans⟩ := hok
    cases c with
    | createPolicy now d a =>
      rw [serve_create] at hans ⊢
      split at hans
      · split at hans
        · cases hans
        · split at hans
          · rename_i p _ _ h _ _; exact .created p h
          · cases hans
          · cases hans
          · cases hans
      · cases hans
      · cases hans
      · cases hans
    | updatePolicy d a =>
      rw [serve_update] at hans ⊢
      split at hans
      · split at hans
        · cases hans
        · split at hans
          · rename_i p _ _ rec h _ _; exact .updated p rec h
          · cases hans
          · cases hans
          · cases hans
      · cases hans
      · cases hans
      · cases hans
    | setRelationship now pid r a =>
      obtain ⟨r', e, rec, rfl, he, hp, _, _, hs⟩ := serve_set_inv (show serve env (.setRelationship now pid r a) s = (.ok ans, (serve env (.setRelationship now pid r a) s).2) from by rw [← hans])
      rw [hs]
      exact .put e rec hp
    | deletePolicy id =>
      rw [serve_deletePolicy]
      split
      · exact .delPolicy id
      · exact .same _
    | deleteRelationship pid r =>
      cases r with
      | none => cases hans
      | some r =>
        rcases toInternal_normal_or_panic r with ⟨e, he⟩ | he
        · rw [serve_delete he]; exact .del _ _ _ rfl
        · rw [serve_delete_panic he] at hans; cases hans
    | deleteRelationships pid sel =>
      rcases serve_bulk_cases (env := env) (s := s) pid sel with ⟨x, rfl, h1, h2⟩ | ⟨h, _⟩
      · rw [serve_deleteMatching h1 h2]; exact .del _ _ _ rfl
      · exact absurd hans (h ans)
    | _ =>
      rw [show (serve env _ s).2 = s from (Call.prog_read env rfl).run s]
      exact .same _
  · rw [C13_rejected_changes_nothing env s c _ _ rfl (fun a h => hok ⟨a, h⟩)]
    exact .same c

end Zanzi
