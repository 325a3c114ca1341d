import Verif.Spec.Quote
import Verif.Model.Base64

/-
Base64 texts as RFC 4648 describes them (C82): six bits to a character, independently of the encoder.
-/

namespace Zanzi.Spec

/-- Binary digits, most significant first. -/
def binary : Nat → Nat → List Nat
  | 0, _ => []
  | w + 1, n => (n / 2 ^ w) % 2 :: binary w n

/-- Table 1 of RFC 4648. -/
def letterValue (c : Char) : Option Nat :=
  if 'A' ≤ c ∧ c ≤ 'Z' then some (c.toNat - 'A'.toNat)
  else if 'a' ≤ c ∧ c ≤ 'z' then some (c.toNat - 'a'.toNat + 26)
  else if '0' ≤ c ∧ c ≤ '9' then some (c.toNat - '0'.toNat + 52)
  else if c = '+' then some 62
  else if c = '/' then some 63
  else none

/-- The text is base64 for the bytes: letters, then padding to a multiple of four; the bits of the letters are those of the bytes, followed by fewer than six zeros. -/
def Base64Of (text : List Char) (bytes : List UInt8) : Prop :=
  ∃ (letters : List Char) (vals : List Nat) (pad zeros : Nat), text = letters ++ List.replicate pad '=' ∧ letters.map letterValue = vals.map some ∧
    text.length % 4 = 0 ∧ pad < 4 ∧ zeros < 6 ∧
    vals.flatMap (binary 6) = bytes.flatMap (fun b => binary 8 b.toNat) ++ List.replicate zeros 0

/-- Vertex names and labels of a dump are written so that they read back: a name as the text of the hash it was made from. -/
def DumpQuoted (calls : List DotCall) : Prop :=
  (∀ d l, .node d l ∈ calls → Reads (dotWrap l) l) ∧
  (∀ h l, .node (.num h) l ∈ calls → Reads (DotId.num h).dumped (hashText h)) ∧
  (∀ l, .node .root l ∈ calls → Reads DotId.root.dumped "root")

end Zanzi.Spec
