import Verif.Model.Go

/-
Model of instance construction, /repo/zanzi.go:25-144.
-/

namespace Zanzi.Setup

/-- Key-value stores, by identity: allocated in memory, a LevelDB directory, or supplied by the caller. -/
inductive Backend where
  | mem (n : Nat)
  | level (path : List Char)
  | given (n : Nat)
deriving DecidableEq

/-- Loggers — zanzi.go:86-122. -/
inductive Logger where
  | default
  | development
  | noop
  | given (n : Nat)
deriving DecidableEq

/-- The world outside: how many in-memory stores exist, the user's home directory (`none`: `user.Current` fails), the LevelDB directories that
open, whether `zap.NewDevelopment` succeeds.  The last three do not change. -/
structure World where
  allocated : Nat
  home : Option (List Char)
  opens : List Char → Bool
  zapOk : Bool

/-- Option values as `New` receives them.  `WithKVStore` and `WithMemKVStore` both are `kv`: the latter allocates its store when the option value is made (zanzi.go:140-143). -/
inductive Opt where
  | kv (b : Backend)
  | development
  | levelDb (path : List Char)
  | logger (l : Logger)
  | developmentLogger

/-- The configured attributes of an instance — zanzi.go:147-152; `init` derives the services from them (155-162). -/
structure Instance where
  logger : Option Logger := none
  store : Option Backend := none
deriving DecidableEq

/-- Errors of options. -/
inductive SetupErr where
  | user
  | kv
  | zap
deriving DecidableEq

/-- `rcdb.NewMemKV`: a store not used before. -/
def newMem (w : World) : Backend × World := (.mem w.allocated, { w with allocated := w.allocated + 1 })

/-- `WithMemKVStore` — zanzi.go:140-143. -/
def withMemKVStore (w : World) : Opt × World := (.kv (newMem w).1, (newMem w).2)

/-- The path after home expansion — zanzi.go:67-75; `strings.Replace(path, "~", home, 1)` replaces the first `~`, which is the first character here.  The captured variable is overwritten;
a home directory does not begin with `~`, so using the option value again gives the same path. -/
def expand (w : World) (path : List Char) : Except SetupErr (List Char) :=
  match path with
  | '~' :: rest =>
    match w.home with
    | none => .error .user
    | some h => .ok (h ++ rest)
  | _ => .ok path

/-- Applying an option — zanzi.go:54-138. -/
def apply (o : Opt) (z : Instance) (w : World) : Except SetupErr Instance × World :=
  match o with
  | .kv b => (.ok { z with store := some b }, w)
  | .development =>
    let (b, w) := newMem w
    if w.zapOk then (.ok { z with store := some b, logger := some .development }, w) else (.error .zap, w)
  | .levelDb path =>
    match expand w path with
    | .error e => (.error e, w)
    | .ok p => if w.opens p then (.ok { z with store := some (.level p) }, w) else (.error .kv, w)
  | .logger l => (.ok { z with logger := some l }, w)
  | .developmentLogger => if w.zapOk then (.ok { z with logger := some .development }, w) else (.error .zap, w)

/-- The option loop of `New` — zanzi.go:33-38. -/
def applyAll : List Opt → Instance → World → Except SetupErr Instance × World
  | [], z, w => (.ok z, w)
  | o :: os, z, w =>
    match apply o z w with
    | (.error e, w) => (.error e, w)
    | (.ok z, w) => applyAll os z w

/-- `setDefaults` — zanzi.go:45-52. -/
def setDefaults (z : Instance) (w : World) : Instance × World :=
  let z := match z.logger with
    | none => { z with logger := some .default }
    | some _ => z
  match z.store with
  | none => ({ z with store := some (newMem w).1 }, (newMem w).2)
  | some _ => (z, w)

/-- `New` — zanzi.go:31-43. -/
def new (opts : List Opt) (w : World) : Except SetupErr Instance × World :=
  match applyAll opts {} w with
  | (.error e, w) => (.error e, w)
  | (.ok z, w) => ((.ok (setDefaults z w).1), (setDefaults z w).2)

end Zanzi.Setup
