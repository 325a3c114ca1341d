import Verif.Spec.Explain

/-
Quoted strings of the DOT language (C67), and the response formats (C66).
-/

namespace Zanzi.Spec

/-- What a DOT reader makes of the text after an opening quote: `\"` stands for a quote, any other character after a backslash is kept
together with the backslash, and the string ends at the first other quote.  `none` when the string does not end exactly at the end of the text. -/
def readBody : List Char → Option (List Char)
  | [] => none
  | ['"'] => some []
  | '"' :: _ => none
  | '\\' :: '"' :: cs => (readBody cs).map ('"' :: ·)
  | '\\' :: c :: cs => (readBody cs).map (fun r => '\\' :: c :: r)
  | c :: cs => (readBody cs).map (c :: ·)

/-- The text is one DOT quoted string, meaning `meant`. -/
def Reads (written meant : String) : Prop :=
  ∃ cs, written.toList = '"' :: cs ∧ readBody cs = some meant.toList

/-- No quote in the text. -/
def QuoteFree (txt : String) : Prop := '"' ∉ txt.toList

/-- The text ends in the middle of a pair of a backslash and the character after it. -/
def midPair : List Char → Bool
  | [] => false
  | ['\\'] => true
  | '\\' :: _ :: cs => midPair cs
  | _ :: cs => midPair cs

/-- A backslash that starts a pair is followed by a quote, or by nothing. -/
def pairedQuote : List Char → Bool
  | [] => false
  | ['\\'] => true
  | '\\' :: '"' :: _ => true
  | '\\' :: _ :: cs => pairedQuote cs
  | _ :: cs => pairedQuote cs

/-- The text shown for a node has no quote. -/
def NodePlain (n : RelationNode) : Prop := ∀ text, NodeText n text → QuoteFree text

/-- No rule of the policy has a quote in its names. -/
def PlainRules (U : Unicode) (p : Policy) : Prop := ∀ y e, DefinedBy U p y e → ∀ rule ∈ leaves e, QuoteFree (ruleText rule)

/-- No subject of the relationships has a quote in its names. -/
def PlainSubjects (R : Relationship → Prop) : Prop := ∀ r sub, R r → r.subject = some sub → NodePlain (subjectNode sub)

/-- No userset of the relationships has a quote in its names. -/
def PlainObjects (R : Relationship → Prop) : Prop := ∀ r o, R r → r.object = some o → NodePlain (.entitySet (some o) r.relation)

/-- Vertex names and labels are written so that they read back. -/
def WellQuoted (calls : List DotCall) : Prop :=
  (∀ n l, .node n l ∈ calls → Reads (dotWrap l) l) ∧
  (∀ k l, .node (.num k) l ∈ calls → Reads (DotId.num k).written (toString k))

/-- The format a text is in. -/
def formatOf : Serialized → ExplainFormat
  | .spew _ => .spew
  | .json _ => .json
  | .dot _ => .dot

end Zanzi.Spec
