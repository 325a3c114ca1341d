import Verif.Model.Gateway
import Verif.Spec.Rpc

/-
What an HTTP caller should see (C106, C107).
-/

namespace Zanzi.Spec

open Wire Gateway

/-- An HTTP request is one for method `m`. -/
def IsFor (q : HttpReq) (m : Method) : Prop := q.verb = "POST" ∧ q.path = m.path.toList

/-- The body holds request `r`: as a message, or `r` sets no field and the body is empty. -/
def Holds (c : Marshaler) (m : Method) (body : Option Bytes) (r : Request) : Prop :=
  ∃ bs, body = some bs ∧ (c.read m bs = .msg r ∨ c.read m bs = .eof ∧ r.method = m ∧ encRequest r = [])

/-- What the caller should get of the result of a call. -/
def Gets (pr : Printer) (c : Marshaler) : Res Answer → HttpReply → Prop
  | .ok a, o => o = .message (c.write (Answer.reply pr a))
  | .err _, o => ∃ code, o = .status code
  | .panic, o => o = .aborted ∨ o = .status .unavailable
  | .fuel, o => o = .fuel

/-- The reply in front of a server is that in its process, but for how a crash looks and for messages larger than any memory. -/
def Alike (pr : Printer) (c : Marshaler) (l o : HttpReply) : Prop :=
  o = l ∨ l = .aborted ∧ o = .status .unavailable ∨
  ∃ a, l = .message (c.write (Answer.reply pr a)) ∧ ¬ ((encReply (Answer.reply pr a)).length < 2 ^ 64 ∧ CountFits a)

/-- What the body brings, if it holds a request at all, can be sent on and is not larger than any memory. -/
def HttpBounded (limit : Nat) (env : Env) (c : Marshaler) (x : Ambient) (q : HttpReq) : Prop :=
  ∀ m r, IsFor q m → Holds c m q.body r → RequestFits limit r ∧ Bounded env (r.call x)

end Zanzi.Spec
