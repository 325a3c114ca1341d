/-
Outcomes of Go code and the small generic helpers of /repo/internal/utils/utils.go.
-/

namespace Zanzi

/-- Sentinel errors the code wraps into its returned errors.  Message texts are
dropped.  Sources: /repo/internal/policy/errors.go:5-15, /repo/pkg/domain/errors.go:7,
/repo/internal/relation_graph/errors.go:5; `parse` stands for every error built in
/repo/internal/relation_expression_parser (parser.go:19,25,30, primitives.go:21-24), `store` for an
error coming from the key-value engine, `yaml` for one from YAML decoding,
`json` for the error of encoding/json, `restriction` for the unnamed errors of
/repo/internal/policy/spec.go:145,155,160,163,297,374. -/
inductive Err where
  | invalidVariant
  | invalidRelationship
  | subjectRestriction
  | relExpTree
  | duplicateDefinition
  | subjectNotAllowed
  | policyNotFound
  | resourceNotFound
  | relationNotFound
  | policyExists
  | wildcardGoal
  | parse
  | store
  | yaml
  | json
  | restriction
  deriving DecidableEq, Repr

/-- Outcome of a Go function returning `(α, error)`: a value, an error, a run-time panic
(nil dereference, explicit `panic`), or `fuel`.  `fuel` is not a Go outcome: it marks that the
recursion bound given to the model was too small. -/
inductive Res (α : Type) where
  | ok (a : α)
  | err (e : Err)
  | panic
  | fuel
  deriving DecidableEq, Repr

namespace Res

/-- Go's `if err != nil { return err }` chaining. -/
@[simp] def bind {α β : Type} : Res α → (α → Res β) → Res β
  | ok a, k => k a
  | err e, _ => err e
  | panic, _ => panic
  | fuel, _ => fuel

instance : Monad Res where
  pure := ok
  bind := Res.bind

@[simp] theorem pure_eq {α : Type} (a : α) : (Pure.pure a : Res α) = ok a := rfl
@[simp] theorem bind_ok {α β : Type} (a : α) (k : α → Res β) : (ok a >>= k) = k a := rfl
@[simp] theorem bind_err {α β : Type} (e : Err) (k : α → Res β) : (err e >>= k) = err e := rfl
@[simp] theorem bind_panic {α β : Type} (k : α → Res β) : ((panic : Res α) >>= k) = panic := rfl
@[simp] theorem bind_fuel {α β : Type} (k : α → Res β) : ((fuel : Res α) >>= k) = fuel := rfl

theorem bind_eq_ok {α β : Type} {x : Res α} {k : α → Res β} {b : β} :
    (x >>= k) = ok b ↔ ∃ a, x = ok a ∧ k a = ok b := by
  cases x <;> simp

instance : LawfulMonad Res :=
  LawfulMonad.mk' (m := Res)
    (id_map := by intro α x; cases x <;> rfl)
    (pure_bind := by intros; rfl)
    (bind_assoc := by intro α β γ x f g; cases x <;> rfl)

/-- Dereferencing a Go pointer: nil panics. -/
def deref {α : Type} : Option α → Res α
  | some a => ok a
  | none => panic

@[simp] theorem deref_some {α : Type} (a : α) : deref (some a) = ok a := rfl
@[simp] theorem deref_none {α : Type} : deref (none : Option α) = panic := rfl

/-- Normal Go outcome of a call: neither a panic nor the model's out-of-fuel mark. -/
def Normal {α : Type} : Res α → Prop
  | ok _ => True
  | err _ => True
  | panic => False
  | fuel => False

end Res

/-- `utils.MapSliceErr` — /repo/internal/utils/utils.go:14-26. -/
def mapSliceErr {α β : Type} (f : α → Res β) : List α → Res (List β)
  | [] => .ok []
  | a :: as =>
    match f a with
    | .ok b =>
      match mapSliceErr f as with
      | .ok bs => .ok (b :: bs)
      | .err e => .err e
      | .panic => .panic
      | .fuel => .fuel
    | .err e => .err e
    | .panic => .panic
    | .fuel => .fuel

/-- `utils.Filter` — /repo/internal/utils/utils.go:48-56 — with a predicate that may panic. -/
def filterRes {α : Type} (f : α → Res Bool) : List α → Res (List α)
  | [] => .ok []
  | a :: as =>
    match f a with
    | .ok b =>
      match filterRes f as with
      | .ok as' => .ok (if b then a :: as' else as')
      | .err e => .err e
      | .panic => .panic
      | .fuel => .fuel
    | .err e => .err e
    | .panic => .panic
    | .fuel => .fuel

/-- A Go `for _, a := range as { if err := f(a); err != nil { return err } }` loop. -/
def forEach {α : Type} (f : α → Res Unit) : List α → Res Unit
  | [] => .ok ()
  | a :: as =>
    match f a with
    | .ok () => forEach f as
    | .err e => .err e
    | .panic => .panic
    | .fuel => .fuel

end Zanzi
