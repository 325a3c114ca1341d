import Verif.Model.Serialize
import Verif.Model.Wire

/-
The text of a node's identifier: base64.StdEncoding (encoding/base64 of the Go library, RFC 4648 section 4) applied to the 32 bytes of SHA-256, and the
vertex names relation_tree_serializer.go makes of it.
-/

namespace Zanzi

open Wire

/-- The alphabet of `base64.StdEncoding`. -/
def b64Alphabet : List Char := "ABCDEFGHIJKLMNOPQRSTUVWXYZabcdefghijklmnopqrstuvwxyz0123456789+/".toList

/-- The character of six bits: `enc.encode[v & 0x3F]`. -/
def b64Char (v : Nat) : Char := b64Alphabet.getD (v % 64) 'A'

/-- `Encoding.EncodeToString`: three bytes to four characters, most significant first; one or two bytes at the end are padded with `=`. -/
def base64 : Bytes → List Char
  | a :: b :: c :: rest =>
    let v := a.toNat * 65536 + b.toNat * 256 + c.toNat
    b64Char (v / 262144) :: b64Char (v / 4096) :: b64Char (v / 64) :: b64Char v :: base64 rest
  | [a, b] =>
    let v := a.toNat * 65536 + b.toNat * 256
    [b64Char (v / 262144), b64Char (v / 4096), b64Char (v / 64), '=']
  | [a] =>
    let v := a.toNat * 65536
    [b64Char (v / 262144), b64Char (v / 4096), '=', '=']
  | [] => []

/-- The text made of a hash — /repo/pkg/domain/relation_graph.go:61-62. -/
def hashText (h : Nat) : String := String.ofList (base64 (encKey 32 h))

/-- `RelationNode.Id` with its last step — /repo/pkg/domain/relation_graph.go:36-63. -/
def RelationNode.idText (H : String → Nat) (n : RelationNode) : Res String := do
  let h ← n.nodeId H
  return hashText h

/-- `RelationTreeDOTSerializer.nodeId` — /repo/internal/relation_graph/relation_tree_serializer.go:56-61: the root's node is nil, any other vertex of the
drawing is known here by its hash. -/
def DotId.dumped : DotId → String
  | .root => dotWrap "root"
  | .num h => dotWrap (hashText h)

end Zanzi
