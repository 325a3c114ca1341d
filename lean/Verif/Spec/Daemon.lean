import Verif.Model.Daemon

/-
Vocabulary for histories of daemons.
-/

namespace Zanzi.Spec

open Daemon

/-- The absolute path of the directory a user asks for: `~` stands for the home directory, other paths are taken from the working directory unless they begin with a slash. -/
def asksFor (u : Login) (f : Flags) : Option (List Char) :=
  match f.dataDir with
  | '~' :: rest => u.home.map (fun home => if (home ++ rest).head? = some '/' then home ++ rest else u.cwd ++ '/' :: (home ++ rest))
  | p => some (if p.head? = some '/' then p else u.cwd ++ '/' :: p)

/-- The directory of the daemon that runs on socket `s`, going back from the latest event. -/
def runningOn (h : Host) (s : Nat) : List (Event × Seen) → Option Nat
  | [] => none
  | (.start u f, .started) :: past => if h.socket f.address = some s then (asksFor u f).map h.place else runningOn h s past
  | (.stop s', _) :: past => if s' = s then none else runningOn h s past
  | _ :: past => runningOn h s past

/-- The requests answered from directory `d`, with their answers, in order.  `past` is what happened before, latest first. -/
def answeredFrom (h : Host) (d : Nat) : List (Event × Seen) → List (Event × Seen) → List (Call × Res Answer)
  | _, [] => []
  | past, (.ask addr c, .answered r) :: tr =>
    (if (h.socket addr).bind (fun s => runningOn h s past) = some d then [(c, r)] else []) ++ answeredFrom h d ((.ask addr c, .answered r) :: past) tr
  | past, x :: tr => answeredFrom h d (x :: past) tr

end Zanzi.Spec
