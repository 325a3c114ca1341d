import Verif.Spec.Graph

/-
The graph of the stored relationships and what a drawing of it contains (C50), independently of the walker and the
serializer.
-/

namespace Zanzi.Spec

/-- Relationships read as edges from the userset object#relation to the subject. -/
def Edge (R : Relationship → Prop) (m n : RelationNode) : Prop :=
  ∃ o rel sub, R ⟨some o, rel, some sub⟩ ∧ m = .entitySet (some o) rel ∧ n = subjectNode sub

/-- A node of some edge. -/
def OnEdge (R : Relationship → Prop) (n : RelationNode) : Prop := ∃ m, Edge R m n ∨ Edge R n m

/-- One or more edges lead from `m` to `n`. -/
inductive Leads (R : Relationship → Prop) : RelationNode → RelationNode → Prop
  | edge {m n} : Edge R m n → Leads R m n
  | more {m k n} : Leads R m k → Edge R k n → Leads R m n

/-- No userset leads back to itself. -/
def Acyclic (R : Relationship → Prop) : Prop := ∀ n, ¬ Leads R n n

/-- Nothing leads to `n`, and `n` leads somewhere. -/
def Root (R : Relationship → Prop) (n : RelationNode) : Prop := (∃ m, Edge R n m) ∧ ∀ m, ¬ Edge R m n

/-- `n` is a root or a root leads to it. -/
def Hangs (R : Relationship → Prop) (n : RelationNode) : Prop := Root R n ∨ ∃ m, Root R m ∧ Leads R m n

/-- The nodes passed on a way along edges from `m`. -/
inductive Way (R : Relationship → Prop) : RelationNode → List RelationNode → Prop
  | here {m} : Way R m [m]
  | step {m n w} : Edge R m n → Way R n w → Way R m (m :: w)

/-- No two nodes of edges share an identifier. -/
def EdgeIdsClear (H : String → Nat) (R : Relationship → Prop) : Prop :=
  ∀ m n id, OnEdge R m → OnEdge R n → m.nodeId H = .ok id → n.nodeId H = .ok id → m = n

/-- The calls draw exactly the nodes satisfying `P`, the edges between them and an edge from the drawing's root to each of the roots. -/
structure Dumps (H : String → Nat) (R : Relationship → Prop) (P : RelationNode → Prop) (cs : List DotCall) : Prop where
  edges : ∀ i j, DotCall.edge (.num i) (.num j) ∈ cs ↔ ∃ m n, P m ∧ Edge R m n ∧ m.nodeId H = .ok i ∧ n.nodeId H = .ok j
  roots : ∀ j, DotCall.edge .root (.num j) ∈ cs ↔ ∃ n, Root R n ∧ n.nodeId H = .ok j
  labels : ∀ i l, DotCall.node (.num i) l ∈ cs ↔ ∃ n, OnEdge R n ∧ P n ∧ n.nodeId H = .ok i ∧ NodeText n l
  root : ∀ l, DotCall.node .root l ∈ cs ↔ l = "root"
  into : ∀ d, DotCall.edge d .root ∉ cs

end Zanzi.Spec
