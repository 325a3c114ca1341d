import Verif.Model.Policy

/-
The key of the lookup table as text: `buildRelationKey` — types.go:57-60 — takes the `String()` of a `RelationFQN` message, which is protobuf's
one-line text format (protobuf v1.31.0, not available here: prototext `Format`, text encoder `appendString`).  `wide` is the extra space between
fields that the library adds in some binaries.
-/

namespace Zanzi.FqnText

/-- A hexadecimal digit. -/
def hexDigit (n : Nat) : Char := if n < 10 then Char.ofNat (48 + n) else Char.ofNat (87 + n)

/-- One character inside quotes (`appendString`): quotes, backslashes and control characters are escaped. -/
def esc (c : Char) : List Char :=
  if c = '"' then ['\\', '"']
  else if c = '\\' then ['\\', '\\']
  else if c = '\n' then ['\\', 'n']
  else if c = '\r' then ['\\', 'r']
  else if c = '\t' then ['\\', 't']
  else if c.toNat < 32 ∨ c.toNat = 127 then ['\\', 'x', hexDigit (c.toNat / 16), hexDigit (c.toNat % 16)]
  else if 128 ≤ c.toNat ∧ c.toNat ≤ 159 then ['\\', 'u', '0', '0', hexDigit (c.toNat / 16), hexDigit (c.toNat % 16)]
  else [c]

/-- A quoted text. -/
def quoted (s : String) : List Char := '"' :: (s.toList.flatMap esc ++ ['"'])

/-- A text field; empty texts are omitted. -/
def field (name : String) (s : String) : List Char := if s = "" then [] else name.toList ++ ':' :: quoted s

/-- `RelationFQN.String` — types.pb.go:45-47; fields from types.pb.go:32-33. -/
def relationKey (wide : Bool) (resource relation : String) : List Char :=
  field "resource_name" resource ++ (if resource = "" ∨ relation = "" then [] else if wide then [' ', ' '] else [' ']) ++
    field "relation_name" relation

/-- `NewPolicyLookUpTable` with the text as key — types.go:41-55. -/
def lutRelations (wide : Bool) (p : Policy) : List (List Char × Relation) :=
  p.resources.foldl (fun m res => res.relations.foldl (fun m rel => kvPut (fun _ _ => false) m (relationKey wide res.name rel.name) rel) m) []

end Zanzi.FqnText
