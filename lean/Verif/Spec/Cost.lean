import Verif.Spec.Graph

/-
What requests cost (C84): the storage calls they make, and the lookups a policy prescribes.
-/

namespace Zanzi.Spec

/-- The storage calls a request makes when it is served alone and none fails. -/
def calls {α : Type} : Prog α → Store → List Op
  | .done _, _ => []
  | .call op k, s => op :: calls (k (some (op.exec s).1)) (op.exec s).2

/-- The stored relations an expression refers to: its own (`_this`) and those its arrows follow. -/
def lookups : ExprTree → Nat
  | .rule .this => 1
  | .rule (.ttu _ _) => 1
  | .rule _ => 0
  | .op l _ r => lookups l + lookups r
  | .nil => 0
  | .unset => 0

/-- The lookups of several usersets with their expressions. -/
def lookupsOf (L : List (USet × ExprTree)) : Nat := (L.map (fun e => lookups e.2)).sum

mutual
/-- The nodes of a goal tree. -/
def treeNodes : GoalTree → Nat
  | .or _ ps => 1 + treesNodes ps
  | .and _ ps => 1 + treesNodes ps
  | .diff _ l r => 1 + treeNodes l + treeNodes r
  | .leaf _ _ _ => 1
  | .path _ _ _ c => 1 + treeNodes c
def treesNodes : List GoalTree → Nat
  | [] => 0
  | t :: ts => treeNodes t + treesNodes ts
end

/-- The nodes an expression unfolds to when every lookup finds `R` relationships. -/
def expanse (R : Nat) : ExprTree → Nat
  | .rule .this => 1 + R
  | .rule (.ttu _ _) => 1 + R
  | .rule (.cu _) => 2
  | .rule .unset => 0
  | .op l _ r => 1 + expanse R l + expanse R r
  | .nil => 0
  | .unset => 0

def expanseOf (R : Nat) (L : List (USet × ExprTree)) : Nat := (L.map (fun e => expanse R e.2)).sum

/-- The userset a Check, an ExplainCheck or an Expand starts from, and the policy asked. -/
def asks : Call → Option (String × USet)
  | .check _ pid (some ⟨some o, rel, _⟩) => some (pid, ⟨o, rel⟩)
  | .explainCheck _ pid (some ⟨some o, rel, _⟩) _ => some (pid, ⟨o, rel⟩)
  | .expand _ pid (some (.entitySet (some o) rel)) _ => some (pid, ⟨o, rel⟩)
  | _ => none

/-- The explanation or tree a request is answered with. -/
def drawn : Answer → Option Serialized
  | .explained t _ _ => some t
  | .expanded t _ => some t
  | _ => none

/-- Its size: the nodes of the tree, or for a drawing its vertices and edges. -/
def drawnSize : Serialized → Nat
  | .spew t => treeNodes t
  | .json t => treeNodes t
  | .dot cs => cs.length

/-- The object is the one asked about, or some relationship points to it. -/
def Met (R : Relationship → Prop) (x : USet) (o : Entity) : Prop :=
  o = x.object ∨ ∃ r sub, R r ∧ r.subject = some sub ∧ pointsTo sub = some o

/-- What the requests other than Check, ExplainCheck and Expand may spend, by the number of relationships the policy has. -/
def allowance (s : Store) : Call → Option Nat
  | .createPolicy _ _ _ => some 3
  | .updatePolicy _ _ => some 3
  | .deletePolicy pid => some (3 + 3 * (relationships s pid).length)
  | .getPolicy _ => some 1
  | .listPolicyIds => some 1
  | .setRelationship _ _ _ _ => some 4
  | .deleteRelationship _ _ => some 3
  | .getRelationship _ _ => some 1
  | .findRelationshipRecords pid _ => some (2 + (relationships s pid).length)
  | .deleteRelationships pid _ => some (1 + 3 * (relationships s pid).length)
  | .dumpRelationships _ _ _ _ => some 2
  | .check _ _ _ => none
  | .explainCheck _ _ _ _ => none
  | .expand _ _ _ _ => none

end Zanzi.Spec
