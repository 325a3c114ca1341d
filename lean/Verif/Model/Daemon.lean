import Verif.Model.Setup
import Verif.Model.Exec

/-
The daemon: /repo/cmd/zanzid/main.go:12-45 and /repo/pkg/server/server.go:14-72.  Daemons are started and stopped on one host, by users from their working directories.
Assumed of what is outside the repository: LevelDB opens a directory for one process at a time (it locks it), starts with nothing, and keeps what was written when the process ends, however it ends (a crash of
the whole host is not modelled); a socket is listened on by one process at a time; a client reaches the daemon listening on the socket its address resolves to.
-/

namespace Zanzi.Daemon

/-- Who starts a daemon: the user's home directory (`none`: not known) and working directory. -/
structure Login where
  home : Option (List Char)
  cwd : List Char

/-- The host: the directory an absolute path leads to, the directories LevelDB can use on behalf of a user, the socket an address resolves to, and the sockets that can be listened on.  Fixed. -/
structure Host where
  place : List Char → Nat
  usable : Login → Nat → Bool
  socket : List Char → Option Nat
  bindable : Nat → Bool

/-- The flags of zanzid, with their defaults — cmd/zanzid/main.go:16-17, 42-45. -/
structure Flags where
  address : List Char := "localhost:8080".toList
  dataDir : List Char := "~/.zanzi".toList

/-- A running daemon: its socket, its directory, the requests in flight. -/
structure Proc where
  sock : Nat
  dir : Nat
  threads : List (Prog Answer)

/-- The running daemons, and what the directories hold. -/
structure Machine where
  procs : List Proc
  disk : Nat → Store

/-- No daemon was ever started. -/
def Machine.fresh : Machine := ⟨[], fun _ => Store.empty⟩

/-- The operating system takes a path that does not begin with a slash from the working directory. -/
def absolute (u : Login) : List Char → List Char
  | '/' :: rest => '/' :: rest
  | p => u.cwd ++ '/' :: p

/-- Why zanzid exits — cmd/zanzid/main.go:27-29, 34-36. -/
inductive StartErr where
  | zanzi (e : Setup.SetupErr)
  | address
  | listen
  | other
deriving DecidableEq

/-- `main` up to `server.Run` — cmd/zanzid/main.go:22-36: `zanzi.New` with the default logger and the LevelDB store (23-26), then `Init`, which registers the services and listens (server.go:21-44, 57-66).
A store other than LevelDB is not obtained (`C69_configured_partial`). -/
def start (h : Host) (u : Login) (f : Flags) (m : Machine) : Except StartErr Machine :=
  match (Setup.new [.logger .default, .levelDb f.dataDir]
      ⟨0, u.home, fun p => h.usable u (h.place (absolute u p)) && !m.procs.any (fun x => x.dir == h.place (absolute u p)), true⟩).1 with
  | .error e => .error (.zanzi e)
  | .ok z =>
    match z.store with
    | some (.level p) =>
      match h.socket f.address with
      | none => .error .address
      | some s =>
        if h.bindable s && !m.procs.any (fun x => x.sock == s) then .ok { m with procs := ⟨s, h.place (absolute u p), []⟩ :: m.procs } else .error .listen
    | _ => .error .other

/-- The daemon on a socket ends; its requests in flight end with it. -/
def Machine.stop (s : Nat) (m : Machine) : Machine := { m with procs := m.procs.filter (fun x => x.sock != s) }

/-- A directory holds something else now. -/
def Machine.write (m : Machine) (d : Nat) (st : Store) : Machine := { m with disk := fun d' => if d' = d then st else m.disk d' }

/-- What happens on the host, one thing after the other. -/
inductive Event where
  | start (u : Login) (f : Flags)
  | stop (s : Nat)
  | ask (addr : List Char) (c : Call)

/-- What is seen of it. -/
inductive Seen where
  | started
  | failed (e : StartErr)
  | stopped
  | refused
  | answered (r : Res Answer)

/-- One event.  A request goes to the daemon on the socket and is served from its directory (`Run`, server.go:70-72; the services as in Model/Exec). -/
def happen (env : Env) (h : Host) (m : Machine) : Event → Seen × Machine
  | .start u f =>
    match start h u f m with
    | .error e => (.failed e, m)
    | .ok m' => (.started, m')
  | .stop s => (.stopped, m.stop s)
  | .ask addr c =>
    match h.socket addr with
    | none => (.refused, m)
    | some s =>
      match m.procs.find? (fun x => x.sock == s) with
      | none => (.refused, m)
      | some p => (.answered ((c.prog env).run (m.disk p.dir)).1, m.write p.dir ((c.prog env).run (m.disk p.dir)).2)

/-- A history. -/
def history (env : Env) (h : Host) : List Event → Machine → List Seen × Machine
  | [], m => ([], m)
  | e :: es, m => ((happen env h m e).1 :: (history env h es (happen env h m e).2).1, (history env h es (happen env h m e).2).2)

/-- A step of the host with requests of every daemon in flight, as in `Sys.Step`. -/
inductive Machine.Step (env : Env) (h : Host) : Machine → Machine → Prop
  | start {u : Login} {f : Flags} {m m' : Machine} : start h u f m = .ok m' → Step env h m m'
  | stop (s : Nat) (m : Machine) : Step env h m (m.stop s)
  | serve {ps₁ ps₂ : List Proc} {p : Proc} {disk : Nat → Store} {ts : List (Prog Answer)} {st : Store} :
      Sys.Step env ⟨p.threads, disk p.dir⟩ ⟨ts, st⟩ → Step env h ⟨ps₁ ++ p :: ps₂, disk⟩ (Machine.write ⟨ps₁ ++ { p with threads := ts } :: ps₂, disk⟩ p.dir st)

/-- States of a host. -/
inductive Machine.Reachable (env : Env) (h : Host) : Machine → Prop
  | fresh : Reachable env h .fresh
  | step {m m' : Machine} : Reachable env h m → Step env h m m' → Reachable env h m'

end Zanzi.Daemon
