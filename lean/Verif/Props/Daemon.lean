import Verif.Lemmas.Daemon
import Verif.Props.Trial

/-
C122: restarting loses nothing.
-/

namespace Zanzi

open Spec Daemon

/-- C122: whatever daemons are started and stopped, by whom and in which order, the requests answered from a directory are answered as if all of them had been sent to one service that was never restarted and
had nothing to do with other directories. -/
theorem C122_restarts (env : Env) (h : Host) (es : List Event) (d : Nat) :
    (answeredFrom h d [] (es.zip (history env h es .fresh).1)).map (·.2) =
      (runCalls env ((answeredFrom h d [] (es.zip (history env h es .fresh).1)).map (·.1)) Store.empty).1 := by
  have key : ∀ (es : List Event) (past : List (Event × Seen)) (m : Machine), Runs h past m →
      (answeredFrom h d past (es.zip (history env h es m).1)).map (·.2) =
        (runCalls env ((answeredFrom h d past (es.zip (history env h es m).1)).map (·.1)) (m.disk d)).1 := by
    intro es
    induction es with
    | nil => exact fun _ _ _ => rfl
    | cons e es ih =>
      intro past m hr
      have hn := ih _ _ (hr.happen (env := env) e)
      have hz : (e :: es).zip (history env h (e :: es) m).1 = (e, (Daemon.happen env h m e).1) :: es.zip (history env h es (Daemon.happen env h m e).2).1 := rfl
      rw [hz]
      cases e with
      | start u f =>
        have hd : (Daemon.happen env h m (.start u f)).2.disk = m.disk := by
          cases hs : Daemon.start h u f m with
          | error e => simp only [Daemon.happen, hs]
          | ok m' =>
            obtain ⟨_, _, _, _, _, _, _, _, rfl⟩ := start_ok_iff.1 hs
            simp only [Daemon.happen, hs]
        rw [hd] at hn
        exact hn
      | stop s => exact hn
      | ask addr c =>
        rcases hr.ask (env := env) addr c with ⟨s, d', h1, h2, h3⟩ | ⟨_, h3⟩
        · rw [h3] at hn ⊢
          have hb : (h.socket addr).bind (fun s => runningOn h s past) = some d' := by rw [h1]; exact h2
          simp only [answeredFrom, hb]
          by_cases hd : d' = d
          · subst hd
            rw [if_pos rfl]
            simp only [List.singleton_append, List.map_cons, runCalls_cons]
            rw [hn]
            simp only [Machine.write, if_pos]
          · rw [if_neg (fun e => hd (Option.some.inj e)), List.nil_append, hn]
            simp only [Machine.write, if_neg (fun e : d = d' => hd e.symm)]
        · rw [h3] at hn ⊢
          exact hn
  exact key es [] .fresh (runs_fresh h)

/-- C122: a daemon starts exactly when its directory is known, can be used and is not used by a running daemon, and its address resolves to a socket that can be listened on and on which no daemon runs. -/
theorem C122_starts_iff (env : Env) (h : Host) (es : List Event) (u : Login) (f : Flags) :
    (history env h (es ++ [.start u f]) .fresh).1.getLast? = some .started ↔
      ∃ path s, asksFor u f = some path ∧ h.socket f.address = some s ∧ h.usable u (h.place path) = true ∧ h.bindable s = true ∧
        runningOn h s (es.zip (history env h es .fresh).1).reverse = none ∧ ∀ s', runningOn h s' (es.zip (history env h es .fresh).1).reverse ≠ some (h.place path) := by
  have hr : Runs h (es.zip (history env h es .fresh).1).reverse (history env h es .fresh).2 := by simpa using runs_history (env := env) es [] .fresh (runs_fresh h)
  rw [history_append, List.getLast?_append]
  show ((some (Daemon.happen env h _ (.start u f)).1).or _ = _) ↔ _
  rw [Option.some_or]
  have : (some (Daemon.happen env h (history env h es .fresh).2 (.start u f)).1 = some .started) ↔ ∃ m', Daemon.start h u f (history env h es .fresh).2 = .ok m' := by
    cases hs : Daemon.start h u f (history env h es .fresh).2 <;> simp [Daemon.happen, hs]
  rw [this]
  constructor
  · rintro ⟨m', hm⟩
    obtain ⟨path, s, e1, e2, e3, e4, e5, e6, _⟩ := start_ok_iff.1 hm
    refine ⟨path, s, e1, e2, e3, e5, ?_, fun s' hs' => ?_⟩
    · cases hn : runningOn h s (es.zip (history env h es .fresh).1).reverse with
      | none => rfl
      | some d =>
        obtain ⟨p, hp, h1, _⟩ := (hr s d).2 hn
        exact absurd h1 (e6 p hp)
    · obtain ⟨p, hp, _, h1⟩ := (hr s' _).2 hs'
      exact e4 p hp h1
  · rintro ⟨path, s, e1, e2, e3, e5, e6, e4⟩
    refine ⟨_, start_ok_iff.2 ⟨path, s, e1, e2, e3, fun p hp hd => ?_, e5, fun p hp hd => ?_, rfl⟩⟩
    · exact e4 p.sock ((hr p.sock _).1 ⟨p, hp, rfl, hd⟩)
    · have := (hr s p.dir).1 ⟨p, hp, hd, rfl⟩
      rw [e6] at this
      exact nomatch this

/-- C122: a request is answered exactly when a daemon runs where it is sent. -/
theorem C122_answered_iff (env : Env) (h : Host) (es : List Event) (addr : List Char) (c : Call) :
    (∃ r, (history env h (es ++ [.ask addr c]) .fresh).1.getLast? = some (.answered r)) ↔
      ∃ s d, h.socket addr = some s ∧ runningOn h s (es.zip (history env h es .fresh).1).reverse = some d := by
  have hr : Runs h (es.zip (history env h es .fresh).1).reverse (history env h es .fresh).2 := by simpa using runs_history (env := env) es [] .fresh (runs_fresh h)
  rw [history_append, List.getLast?_append]
  show (∃ r, (some (Daemon.happen env h _ (.ask addr c)).1).or _ = _) ↔ _
  rcases hr.ask (env := env) addr c with ⟨s, d, h1, h2, h3⟩ | ⟨h1, h3⟩
  · rw [h3]
    exact ⟨fun _ => ⟨s, d, h1, h2⟩, fun _ => ⟨_, rfl⟩⟩
  · rw [h3]
    refine ⟨(fun ⟨_, e⟩ => nomatch e), ?_⟩
    rintro ⟨s, d, e1, e2⟩
    rw [e1] at h1
    exact nomatch h1.symm.trans e2

/-- C122: with the default directory, the same user gets the same directory from every working directory. -/
theorem C122_default_directory (home cwd : List Char) (hh : home.head? = some '/') (a : List Char) :
    asksFor ⟨some home, cwd⟩ { address := a } = some (home ++ "/.zanzi".toList) := by
  cases home with
  | nil => exact nomatch hh
  | cons c cs =>
    cases hh
    rfl

/-- C122, with requests in flight, faults and crashes: in every state of the host every running daemon is in a state a single service can reach, and so is every directory read afresh; no two daemons have one
directory or socket.  What holds in all states of the service (C13–C33 and others) therefore holds across restarts. -/
theorem C122_states (env : Env) (h : Host) (m : Machine) (hm : Machine.Reachable env h m) :
    (∀ p ∈ m.procs, Sys.Reachable env ⟨p.threads, m.disk p.dir⟩) ∧ (∀ d, Sys.Reachable env ⟨[], m.disk d⟩) ∧
    m.procs.Pairwise (fun p q => p.dir ≠ q.dir ∧ p.sock ≠ q.sock) := by
  induction hm with
  | fresh => exact ⟨nofun, fun _ => .init, .nil⟩
  | step _ hs ih =>
    obtain ⟨h1, h2, h3⟩ := ih
    cases hs with
    | stop s => exact ⟨fun p hp => h1 p (List.mem_filter.1 hp).1, h2, h3.filter _⟩
    | start hs =>
      obtain ⟨path, s, _, _, _, e1, _, e2, rfl⟩ := start_ok_iff.1 hs
      refine ⟨fun p hp => ?_, h2, List.pairwise_cons.2 ⟨fun p hp => ⟨fun e => e1 p hp e.symm, fun e => e2 p hp e.symm⟩, h3⟩⟩
      rcases List.mem_cons.1 hp with rfl | hp
      · exact h2 _
      · exact h1 p hp
    | @serve ps₁ ps₂ p disk ts st hst =>
      have hp : Sys.Reachable env ⟨ts, st⟩ := .step (h1 p (by simp)) hst
      have hne : ∀ q ∈ ps₁ ++ ps₂, q.dir ≠ p.dir := by
        intro q hq
        rw [List.pairwise_append] at h3
        rcases List.mem_append.1 hq with hq | hq
        · exact (h3.2.2 q hq p List.mem_cons_self).1
        · exact fun e => ((List.pairwise_cons.1 h3.2.1).1 q hq).1 e.symm
      refine ⟨fun q hq => ?_, fun d => ?_, ?_⟩
      · show Sys.Reachable env ⟨q.threads, if q.dir = p.dir then st else disk q.dir⟩
        have hq' : q = { p with threads := ts } ∨ q ∈ ps₁ ++ ps₂ := by
          rcases List.mem_append.1 hq with hq | hq
          · exact .inr (List.mem_append_left _ hq)
          · rcases List.mem_cons.1 hq with hq | hq
            · exact .inl hq
            · exact .inr (List.mem_append_right _ hq)
        rcases hq' with rfl | hq'
        · rw [if_pos rfl]
          exact hp
        · rw [if_neg (hne q hq')]
          refine h1 q ?_
          rcases List.mem_append.1 hq' with h' | h'
          · exact List.mem_append_left _ h'
          · exact List.mem_append_right _ (List.mem_cons_of_mem _ h')
      · show Sys.Reachable env ⟨[], if d = p.dir then st else disk d⟩
        split
        · exact .step hp (.crash _ _)
        · exact h2 d
      · show (ps₁ ++ { p with threads := ts } :: ps₂).Pairwise _
        rw [List.pairwise_append] at h3 ⊢
        refine ⟨h3.1, List.pairwise_cons.2 ⟨(List.pairwise_cons.1 h3.2.1).1, (List.pairwise_cons.1 h3.2.1).2⟩, fun a ha b hb => ?_⟩
        rcases List.mem_cons.1 hb with rfl | hb
        · exact h3.2.2 a ha p List.mem_cons_self
        · exact h3.2.2 a ha b (List.mem_cons_of_mem _ hb)

/-- A host on which `/a/data`, `/b/data` and `/home/al/.zanzi` are different directories. -/
def exHost : Host where
  place p := if p = "/a/data".toList then 1 else if p = "/b/data".toList then 2 else 3
  usable _ _ := true
  socket _ := some 0
  bindable _ := true

/-- A daemon is started, creates a policy, is stopped, and is started again with the same flags. -/
def restart (home : Option (List Char)) (f : Flags) : List Event :=
  [.start ⟨home, "/a".toList⟩ f, .ask f.address (.createPolicy 0 (some (.policy (docPolicy "p"))) []), .stop 0, .start ⟨home, "/b".toList⟩ f, .ask f.address (.getPolicy "p")]

theorem restart_seen (H : String → Nat) (home : Option (List Char)) (f : Flags) (p p' : List Char) (h1 : asksFor ⟨home, "/a".toList⟩ f = some p) (h2 : asksFor ⟨home, "/b".toList⟩ f = some p') :
    (history (wEnv H) exHost (restart home f) .fresh).1 =
      [.started, .answered (.ok (.created ⟨docPolicy "p", [], 0⟩)), .stopped, .started,
        .answered (.ok (.policy (if exHost.place p' = exHost.place p then some ⟨docPolicy "p", [], 0⟩ else none)))] := by
  have hp : verifyPolicy U0 (docPolicy "p") = .ok () := by decide +kernel
  have hc : serve (wEnv H) (.createPolicy 0 (some (.policy (docPolicy "p"))) []) Store.empty =
      (.ok (.created ⟨docPolicy "p", [], 0⟩), Store.empty.putPolicy ⟨docPolicy "p", [], 0⟩) := by
    rw [serve_create]
    simp only [getPolicyFromDefinition, Res.deref_some, Res.bind_ok, Store.empty, kvGet, wEnv, hp]
  have e1 := (start_ok_iff (h := exHost) (m := .fresh)).2 ⟨p, 0, h1, rfl, rfl, nofun, rfl, nofun, rfl⟩
  have e2 := (start_ok_iff (h := exHost) (m := ⟨[], fun d => if d = exHost.place p then Store.empty.putPolicy ⟨docPolicy "p", [], 0⟩ else Store.empty⟩)).2
    ⟨p', 0, h2, rfl, rfl, nofun, rfl, nofun, rfl⟩
  have a1 : Daemon.happen (wEnv H) exHost .fresh (.start ⟨home, "/a".toList⟩ f) = (.started, ⟨[⟨0, exHost.place p, []⟩], fun _ => Store.empty⟩) := by
    simp only [Daemon.happen, e1]
    rfl
  have a2 : Daemon.happen (wEnv H) exHost ⟨[⟨0, exHost.place p, []⟩], fun _ => Store.empty⟩ (.ask f.address (.createPolicy 0 (some (.policy (docPolicy "p"))) [])) =
      (.answered (.ok (.created ⟨docPolicy "p", [], 0⟩)),
        ⟨[⟨0, exHost.place p, []⟩], fun d => if d = exHost.place p then Store.empty.putPolicy ⟨docPolicy "p", [], 0⟩ else Store.empty⟩) :=
    congrArg (fun x : Res Answer × Store => (Seen.answered x.1, Machine.write ⟨[⟨0, exHost.place p, []⟩], fun _ => Store.empty⟩ (exHost.place p) x.2)) hc
  have a3 : Daemon.happen (wEnv H) exHost ⟨[], fun d => if d = exHost.place p then Store.empty.putPolicy ⟨docPolicy "p", [], 0⟩ else Store.empty⟩ (.start ⟨home, "/b".toList⟩ f) =
      (.started, ⟨[⟨0, exHost.place p', []⟩], fun d => if d = exHost.place p then Store.empty.putPolicy ⟨docPolicy "p", [], 0⟩ else Store.empty⟩) := by
    simp only [Daemon.happen, e2]
  have a4 : (Daemon.happen (wEnv H) exHost ⟨[⟨0, exHost.place p', []⟩], fun d => if d = exHost.place p then Store.empty.putPolicy ⟨docPolicy "p", [], 0⟩ else Store.empty⟩
      (.ask f.address (.getPolicy "p"))).1 = .answered (.ok (.policy (if exHost.place p' = exHost.place p then some ⟨docPolicy "p", [], 0⟩ else none))) := by
    show Seen.answered (Res.ok (Answer.policy (kvGet (if exHost.place p' = exHost.place p then Store.empty.putPolicy ⟨docPolicy "p", [], 0⟩ else Store.empty).policies "p"))) = _
    split
    · exact congrArg (fun x => Seen.answered (.ok (.policy x))) ((kvGet_put (lt := strLt) (m := []) ..).trans (if_pos rfl))
    · rfl
  simp only [restart, history, a1, a2]
  rw [show Daemon.happen (wEnv H) exHost ⟨[⟨0, exHost.place p, []⟩], fun d => if d = exHost.place p then Store.empty.putPolicy ⟨docPolicy "p", [], 0⟩ else Store.empty⟩ (.stop 0) =
    (.stopped, ⟨[], fun d => if d = exHost.place p then Store.empty.putPolicy ⟨docPolicy "p", [], 0⟩ else Store.empty⟩) from rfl]
  dsimp only
  rw [a3]
  dsimp only
  rw [a4]

/-- C122, the same flags are not enough: with a directory given relative to the working directory, a daemon restarted by the same user from elsewhere has none of the data. -/
theorem C122_relative_elsewhere (H : String → Nat) : ∃ (h : Host) (home : List Char) (f : Flags),
    (history (wEnv H) h (restart (some home) f) .fresh).1 =
      [.started, .answered (.ok (.created ⟨docPolicy "p", [], 0⟩)), .stopped, .started, .answered (.ok (.policy none))] := by
  refine ⟨exHost, "/home/al".toList, { dataDir := "data".toList }, ?_⟩
  rw [restart_seen H (some "/home/al".toList) { dataDir := "data".toList } "/a/data".toList "/b/data".toList (by decide +kernel) (by decide +kernel)]
  rw [if_neg (by decide +kernel)]

/-- `C122_restarts` at work: with the default flags the policy is there after the restart. -/
example (H : String → Nat) : (history (wEnv H) exHost (restart (some "/home/al".toList) {}) .fresh).1 =
    [.started, .answered (.ok (.created ⟨docPolicy "p", [], 0⟩)), .stopped, .started, .answered (.ok (.policy (some ⟨docPolicy "p", [], 0⟩)))] := by
  rw [restart_seen H (some "/home/al".toList) {} "/home/al/.zanzi".toList "/home/al/.zanzi".toList (by decide +kernel) (by decide +kernel), if_pos rfl]

/-- `C122_states` at work: two daemons on different directories and sockets, one of them with a request in flight. -/
example (H : String → Nat) : ∃ (h : Host) (m : Machine), Machine.Reachable (wEnv H) h m ∧ m.procs.length = 2 ∧ ∃ p ∈ m.procs, p.threads ≠ [] := by
  refine ⟨{ exHost with socket := fun a => some a.length }, ?_⟩
  have e1 := (start_ok_iff (h := { exHost with socket := fun a => some a.length }) (u := ⟨none, "/a".toList⟩) (f := ⟨"x:1".toList, "data".toList⟩) (m := .fresh)).2
    ⟨"/a/data".toList, 3, by decide +kernel, by decide +kernel, rfl, nofun, rfl, nofun, rfl⟩
  have e2 := (start_ok_iff (h := { exHost with socket := fun a => some a.length }) (u := ⟨none, "/b".toList⟩) (f := ⟨"x:10".toList, "data".toList⟩)
    (m := ⟨[⟨3, exHost.place "/a/data".toList, []⟩], fun _ => Store.empty⟩)).2
    ⟨"/b/data".toList, 4, by decide +kernel, by decide +kernel, rfl, fun p hp => (by rw [List.mem_singleton.1 hp]; exact (by decide +kernel : exHost.place "/a/data".toList ≠ exHost.place "/b/data".toList)), rfl,
      fun p hp => (by rw [List.mem_singleton.1 hp]; exact (by decide : 3 ≠ 4)), rfl⟩
  have r1 : Machine.Reachable (wEnv H) _ _ := .step (.step .fresh (.start e1)) (.start e2)
  exact ⟨_, .step r1 (.serve (ps₁ := []) (.arrive .listPolicyIds [] _)), rfl, _, List.mem_cons_self, by simp⟩

end Zanzi
