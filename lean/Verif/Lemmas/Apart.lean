import Verif.Lemmas.Bulk
import Verif.Props.Concurrency
import Verif.Spec.Apart

/-
Lemmas for schedules in which SetRelationship and DeletePolicy of a policy never overlap.
-/

namespace Zanzi

open Spec Prog

/-- Whatever storage answers, success is reported as having found the policy. -/
inductive Deleting : Prog Answer → Prop
  | done {r : Res Answer} : (∀ a, r = .ok a → ∃ n, a = .deletedPolicy true n) → Deleting (.done r)
  | call {o : Op} {k : Option o.Resp → Prog Answer} : (∀ r, Deleting (k r)) → Deleting (.call o k)

/-- Once the policy record was deleted, success is reported as having found the policy. -/
inductive MarksDeletion (pid : String) : Prog Answer → Prop
  | done {r : Res Answer} : MarksDeletion pid (.done r)
  | call {o : Op} {k : Option o.Resp → Prog Answer} : (o = .polDel pid → ∀ r, Deleting (k r)) → (∀ r, MarksDeletion pid (k r)) → MarksDeletion pid (.call o k)

theorem Deleting.bind {α : Type} {p : Prog α} {f : α → Prog Answer} (hf : ∀ a, Deleting (f a)) : Deleting (p >>= f) := by
  show Deleting (p.bind f)
  induction p with
  | done r =>
    cases r with
    | ok a => exact hf a
    | err => exact .done (fun _ => nofun)
    | panic => exact .done (fun _ => nofun)
    | fuel => exact .done (fun _ => nofun)
  | call o k ih => exact .call ih

theorem MarksDeletion.of {pid : String} {p : Prog Answer} (h : p.AllOps (keepsPol pid)) : MarksDeletion pid p := by
  induction h with
  | done => exact .done
  | call ho _ ih => exact .call (fun h => absurd h ho) ih

theorem deletePolicy_marks (env : Env) (pid : String) : MarksDeletion pid ((Call.deletePolicy pid).prog env) := by
  show MarksDeletion pid (Service.deletePolicy env pid >>= fun x => pure (.deletedPolicy x.1 x.2))
  unfold Service.deletePolicy Repo.deletePolicy
  refine .call nofun (fun r => ?_)
  match r with
  | none => exact .done
  | some false => exact .done
  | some true =>
    refine .call (fun _ r => ?_) (fun r => ?_)
    · match r with
      | none => exact .done (fun _ => nofun)
      | some () =>
        show Deleting (((Repo.deleteRelationships env.H pid (some allSelector)) >>= fun count => pure (true, count)) >>= _)
        rw [Prog.bind_assoc]
        exact Deleting.bind (fun a => .done (fun b hb => ⟨a, (Res.ok.inj hb).symm⟩))
    · match r with
      | none => exact .done
      | some () =>
        refine MarksDeletion.of ?_
        show AllOps _ (((Repo.deleteRelationships env.H pid (some allSelector)) >>= fun count => pure (true, count)) >>= _)
        rw [Prog.bind_assoc]
        refine AllOps.bind ?_ (fun _ => .done _)
        unfold Repo.deleteRelationships
        refine AllOps.bind ((Repo.findRelationships_read _ _).mono (fun o ho he => by subst he; cases ho)) (fun _ => AllOps.bind (AllOps.mapSlice (fun _ _ =>
          AllOps.bind (AllOps.lift _) (fun _ => AllOps.bind (AllOps.lift _) (fun _ => AllOps.bind (AllOps.op nofun) (fun _ =>
            AllOps.bind (AllOps.op nofun) (fun _ => AllOps.bind (AllOps.op nofun) (fun _ => .done _))))))) (fun _ => .done _))

section
variable {env : Env} {pid : String}

/-- Apart schedules are schedules. -/
theorem Sys.Apart.reachable {ts : List (Call × Prog Answer)} {s : Store} (h : Sys.Apart env pid ts s) : Sys.Reachable env ⟨ts.map (·.2), s⟩ := by
  induction h with
  | init => exact .init
  | arrive c _ _ _ ih => simpa using ih.step (.arrive c _ _)
  | op _ hs ih =>
    simp only [List.map_append, List.map_cons] at ih ⊢
    exact ih.step (.op hs)
  | leave _ _ ih =>
    simp only [List.map_append, List.map_cons] at ih ⊢
    exact ih.step (.leave _ _ _ _)
  | crash _ _ ih => exact ih.step (.crash _ _)

theorem setsIn_iff {c : Call} : c.setsIn pid ↔ ∃ now r a, c = .setRelationship now pid r a := by
  constructor
  · intro h
    cases c <;> try exact h.elim
    case setRelationship now q r a => exact ⟨now, r, a, by rw [show q = pid from h]⟩
  · rintro ⟨_, _, _, rfl⟩
    rfl

theorem notSet_noneOf {o : Op} (h : ∀ k e, o ≠ .edgeSet pid k e) : noneOf env (fun _ => True) pid o := fun k e he => absurd he (h k e)

/-- What holds of the requests in flight. -/
structure ApartInv (env : Env) (pid : String) (ts : List (Call × Prog Answer)) (s : Store) : Prop where
  keeps : ∀ x ∈ ts, x.1 ≠ .deletePolicy pid → x.2.AllOps (keepsPol pid)
  plain : ∀ x ∈ ts, ¬ x.1.setsIn pid → x.2.AllOps (fun o => ∀ k e, o ≠ .edgeSet pid k e)
  marks : ∀ x ∈ ts, x.1 = .deletePolicy pid → MarksDeletion pid x.2
  ends : ∀ x ∈ ts, x.1 = .deletePolicy pid → x.2.Wp (Fewer env (fun _ => True) pid)
    (fun res s' => ∀ n, res = .ok (.deletedPolicy true n) → ∀ r, Present s' pid r → ¬ True) s
  guard : ∀ x ∈ ts, x.1.setsIn pid → (kvGet s.policies pid).isSome = true ∨ Guarded pid x.2
  apart : ∀ x ∈ ts, x.1.setsIn pid → ∀ y ∈ ts, y.1 ≠ .deletePolicy pid
  whole : NoOrphans s pid ∨ ∃ x ∈ ts, x.1 = .deletePolicy pid ∧ Deleting x.2

theorem mem_mid {α : Type} {a : α} {x : α} {l r : List α} (h : a ∈ l ++ x :: r) : a = x ∨ a ∈ l ++ r := by
  simp only [List.mem_append, List.mem_cons] at h ⊢
  grind

theorem mem_mid_of {α : Type} {a : α} {x : α} {l r : List α} (h : a = x ∨ a ∈ l ++ r) : a ∈ l ++ x :: r := by
  simp only [List.mem_append, List.mem_cons] at h ⊢
  grind

theorem noOrphans_exec {o : Op} {s : Store} (h : NoOrphans s pid) (hk : keepsPol pid o)
    (hn : (kvGet s.policies pid).isSome = true ∨ ∀ k e, o ≠ .edgeSet pid k e) : NoOrphans (o.exec s).2 pid := by
  rw [noOrphans_iff] at h ⊢
  rcases h with h | h
  · exact .inl (keepsPol_exec hk s h)
  · rcases hn with hn | hn
    · exact .inl (keepsPol_exec hk s hn)
    · exact .inr (notSet_exec hn s h)

theorem Sys.Apart.inv {ts : List (Call × Prog Answer)} {s : Store} (h : Sys.Apart env pid ts s) : ApartInv env pid ts s := by
  induction h with
  | init =>
    refine ⟨by simp, by simp, by simp, by simp, by simp, by simp, .inl ?_⟩
    intro r hr
    simp [Present, relationships, Store.empty] at hr
  | @arrive ts s c h h1 h2 ih =>
    have key : ∀ x ∈ ts ++ [(c, c.prog env)], x ∈ ts ∨ x = (c, c.prog env) := by simp
    refine ⟨fun x hx hn => ?_, fun x hx hn => ?_, fun x hx hn => ?_, fun x hx hn => ?_, fun x hx hn => ?_, fun x hx hn y hy => ?_, ?_⟩
    · rcases key x hx with hx | rfl
      · exact ih.keeps x hx hn
      · exact prog_keepsPol env hn
    · rcases key x hx with hx | rfl
      · exact ih.plain x hx hn
      · exact prog_notSet env c pid (fun h => hn (setsIn_iff.2 h))
    · rcases key x hx with hx | rfl
      · exact ih.marks x hx hn
      · obtain rfl : c = .deletePolicy pid := hn
        exact deletePolicy_marks env pid
    · rcases key x hx with hx | rfl
      · exact ih.ends x hx hn
      · obtain rfl : c = .deletePolicy pid := hn
        exact deletePolicy_wp (ownKeys_of h.reachable.wf.1)
    · rcases key x hx with hx | rfl
      · exact ih.guard x hx hn
      · exact .inr (prog_guarded env c pid)
    · rcases key x hx with hx | rfl
      · rcases key y hy with hy | rfl
        · exact ih.apart x hx hn y hy
        · exact fun he => h2 he x hx hn
      · rcases key y hy with hy | rfl
        · exact h1 hn y hy
        · rintro rfl; exact hn
    · rcases ih.whole with hw | ⟨x, hx, hw⟩
      · exact .inl hw
      · exact .inr ⟨x, by simp [hx], hw⟩
  | @op c o k ts₁ ts₂ s s' resp b h hs ih =>
    have hme : (c, Prog.call o k) ∈ ts₁ ++ (c, .call o k) :: ts₂ := mem_mid_of (.inl rfl)
    have old : ∀ {x}, x ∈ ts₁ ++ ts₂ → x ∈ ts₁ ++ (c, Prog.call o k) :: ts₂ := fun h => mem_mid_of (.inr h)
    have hss : s' = s ∨ s' = (o.exec s).2 := by
      cases hs with
      | ok => exact .inr rfl
      | failBefore => exact .inl rfl
      | failAfter => exact .inr rfl
    refine ⟨fun x hx hn => ?_, fun x hx hn => ?_, fun x hx hn => ?_, fun x hx hn => ?_, fun x hx hn => ?_, fun x hx hn y hy => ?_, ?_⟩
    · rcases mem_mid hx with rfl | hx
      · cases ih.keeps _ hme hn with | call _ hk => exact hk _
      · exact ih.keeps x (old hx) hn
    · rcases mem_mid hx with rfl | hx
      · cases ih.plain _ hme hn with | call _ hk => exact hk _
      · exact ih.plain x (old hx) hn
    · rcases mem_mid hx with rfl | hx
      · cases ih.marks _ hme hn with | call _ hk => exact hk _
      · exact ih.marks x (old hx) hn
    · rcases mem_mid hx with rfl | hx
      · have h1 := ih.ends _ hme hn s (Fewer.refl s)
        cases hs with
        | ok => exact h1.1
        | failBefore => exact h1.2.1
        | failAfter => exact h1.2.2
      · have h1 := ih.ends x (old hx) hn
        rcases hss with rfl | rfl
        · exact h1
        · have hc : ¬ c.setsIn pid := fun hc => ih.apart _ hme hc x (old hx) hn
          cases ih.plain _ hme hc with
          | call ho _ => exact Prog.Wp.stable Fewer.trans h1 (noneOf_exec (notSet_noneOf ho) s)
    · have hnd : ∀ y ∈ ts₁ ++ (c, Prog.call o k) :: ts₂, y.1 ≠ .deletePolicy pid := by
        rcases mem_mid hx with rfl | hx
        · exact ih.apart _ hme hn
        · exact ih.apart x (old hx) hn
      have hko : keepsPol pid o := by
        cases ih.keeps _ hme (hnd _ hme) with | call ho _ => exact ho
      have hmono : (kvGet s.policies pid).isSome = true → (kvGet s'.policies pid).isSome = true := by
        intro hp
        rcases hss with rfl | rfl
        · exact hp
        · exact keepsPol_exec hko s hp
      rcases mem_mid hx with rfl | hx
      · rcases ih.guard _ hme hn with hp | hg
        · exact .inl (hmono hp)
        · cases hg with
          | call _ h => exact .inr (h _)
          | get hn' hs' =>
            cases hs with
            | ok =>
              cases hp : kvGet s.policies pid with
              | some rec => left; exact hmono (by rw [hp]; rfl)
              | none =>
                right
                rw [show ((Op.polGet pid).exec s).1 = none from hp]
                exact hs'
            | failBefore => exact .inr hn'
            | failAfter => exact .inr hn'
      · exact (ih.guard x (old hx) hn).imp hmono id
    · have hx' : ∃ x', x' ∈ ts₁ ++ (c, Prog.call o k) :: ts₂ ∧ x'.1.setsIn pid := by
        rcases mem_mid hx with rfl | hx
        · exact ⟨_, hme, hn⟩
        · exact ⟨x, old hx, hn⟩
      obtain ⟨x', h1, h2⟩ := hx'
      rcases mem_mid hy with rfl | hy
      · exact (ih.apart x' h1 h2 _ hme :)
      · exact ih.apart x' h1 h2 y (old hy)
    · rcases ih.whole with hw | ⟨x, hx, hxd, hw⟩
      · rcases hss with rfl | rfl
        · exact .inl hw
        · by_cases hc : c = .deletePolicy pid
          · cases ih.marks _ hme hc with
            | call hd _ =>
              by_cases ho : o = .polDel pid
              · exact .inr ⟨_, mem_mid_of (.inl rfl), hc, hd ho _⟩
              · have hns : ¬ c.setsIn pid := by subst hc; exact id
                cases ih.plain _ hme hns with
                | call ho' _ => exact .inl (noOrphans_exec hw ho (.inr ho'))
          · cases ih.keeps _ hme hc with
            | call ho _ =>
              refine .inl ?_
              by_cases hns : c.setsIn pid
              · rcases ih.guard _ hme hns with hp | hg
                · exact noOrphans_exec hw ho (.inl hp)
                · refine noOrphans_exec hw ho (.inr ?_)
                  cases hg with
                  | get _ _ => exact fun _ _ => nofun
                  | call hn _ => exact hn
              · cases ih.plain _ hme hns with
                | call ho' _ => exact noOrphans_exec hw ho (.inr ho')
      · right
        rcases mem_mid hx with rfl | hx
        · cases hw with
          | call hk => exact ⟨_, mem_mid_of (.inl rfl), hxd, hk _⟩
        · exact ⟨x, mem_mid_of (.inr hx), hxd, hw⟩
  | @leave c r ts₁ ts₂ s h hl ih =>
    have old : ∀ {x}, x ∈ ts₁ ++ ts₂ → x ∈ ts₁ ++ (c, Prog.done r) :: ts₂ := fun h => mem_mid_of (.inr h)
    refine ⟨fun x hx => ih.keeps x (old hx), fun x hx => ih.plain x (old hx), fun x hx => ih.marks x (old hx), fun x hx => ih.ends x (old hx),
      fun x hx => ih.guard x (old hx), fun x hx hn y hy => ih.apart x (old hx) hn y (old hy), ?_⟩
    rcases ih.whole with hw | ⟨x, hx, hxd, hw⟩
    · exact .inl hw
    · rcases mem_mid hx with rfl | hx
      · cases hw with
        | done hd =>
          obtain ⟨a, rfl⟩ := hl hxd
          obtain ⟨n, rfl⟩ := hd a rfl
          exact .inl (fun r hr => absurd trivial (ih.ends _ (mem_mid_of (.inl rfl)) hxd s (Fewer.refl s) n rfl r hr))
      · exact .inr ⟨x, hx, hxd, hw⟩
  | crash h hn ih =>
    refine ⟨by simp, by simp, by simp, by simp, by simp, by simp, .inl ?_⟩
    rcases ih.whole with hw | ⟨x, hx, hxd, _⟩
    · exact hw
    · exact absurd hxd (hn x hx)

/-- A request that conflicts with none in flight is served completely. -/
theorem Sys.Apart.served {ts : List (Call × Prog Answer)} {s : Store} (h : Sys.Apart env pid ts s) (c : Call)
    (h1 : c.setsIn pid → ∀ x ∈ ts, x.1 ≠ .deletePolicy pid) (h2 : c = .deletePolicy pid → (∀ x ∈ ts, ¬ x.1.setsIn pid) ∧ ∃ a, (serve env c s).1 = .ok a) :
    Sys.Apart env pid ts (serve env c s).2 := by
  have : ∀ (p : Prog Answer) (s : Store), (c = .deletePolicy pid → ∃ a, (p.run s).1 = .ok a) → Sys.Apart env pid (ts ++ (c, p) :: []) s →
      Sys.Apart env pid ts (p.run s).2 := by
    intro p
    induction p with
    | done r =>
      intro s hr h
      have := Sys.Apart.leave h hr
      rw [List.append_nil] at this
      exact this
    | call o k ih => intro s hr h; exact ih _ _ hr (.op h (.ok o s))
  exact this _ _ (fun e => (h2 e).2) (.arrive c h h1 (fun e => (h2 e).1))

end

/-! ### Creating a policy that is stored -/

/-- A stored policy stays stored. -/
def StaysStored (id : String) (s s' : Store) : Prop := (kvGet s.policies id).isSome = true → (kvGet s'.policies id).isSome = true

theorem NoCreate.wp {id : String} {t : Prog Answer} (h : NoCreate id t) (ha : t.AllOps (keepsPol id)) {s : Store} (hs : (kvGet s.policies id).isSome = true) :
    t.Wp (StaysStored id) (fun res _ => ∀ rec, res = .ok (.created rec) → rec.policy.id ≠ id) s := by
  induction h generalizing s with
  | done hr => exact fun _ _ => hr
  | @get k hn _ ih1 ih2 =>
    intro s' h'
    cases ha with
    | call ho hk =>
      obtain ⟨rec, hrec⟩ := Option.isSome_iff_exists.1 (h' hs)
      refine ⟨?_, ih1 (hk _) (h' hs), ih1 (hk _) (keepsPol_exec ho s' (h' hs))⟩
      rw [show ((Op.polGet id).exec s').1 = some rec from hrec]
      exact ih2 rec (hk _) (h' hs)
  | call _ ih =>
    intro s' h'
    cases ha with
    | call ho hk => exact ⟨ih _ (hk _) (keepsPol_exec ho s' (h' hs)), ih _ (hk _) (h' hs), ih _ (hk _) (keepsPol_exec ho s' (h' hs))⟩

theorem createPolicy_wp (env : Env) (id : String) (now : Timestamp) (d : Option PolicyDefinition) (a : Bytes) (s : Store) :
    ((Call.createPolicy now d a).prog env).Wp (StaysStored id)
      (fun res s' => ∀ rec, res = .ok (.created rec) → rec.policy.id = id → (kvGet s'.policies id).isSome = true) s := by
  have hrefl : ∀ s, StaysStored id s s := fun _ => _root_.id
  show Prog.Wp _ _ (Service.createPolicy env now d a >>= fun x => pure (Answer.created x)) s
  unfold Service.createPolicy
  cases getPolicyFromDefinition env d with
  | err => exact fun _ _ => nofun
  | panic => exact fun _ _ => nofun
  | fuel => exact fun _ _ => nofun
  | ok p =>
    rw [lift_ok_bind]
    intro s1 h1
    refine ⟨?_, fun _ _ _ => nofun, fun _ _ _ => nofun⟩
    generalize ((Op.polGet p.id).exec s1).1 = f
    change Option PolicyRecord at f
    cases f with
    | some _ => exact fun _ _ _ => nofun
    | none =>
      show Prog.Wp _ _ ((Prog.lift (verifyPolicy env.U p) >>= fun _ => Repo.setPolicy ⟨p, a, now⟩ >>= fun _ => pure (⟨p, a, now⟩ : PolicyRecord)) >>=
        fun x => pure (Answer.created x)) _
      cases verifyPolicy env.U p with
      | err => exact fun _ _ _ => nofun
      | panic => exact fun _ _ _ => nofun
      | fuel => exact fun _ _ _ => nofun
      | ok u =>
        intro s2 h2
        refine ⟨?_, fun _ _ _ => nofun, fun _ _ _ => nofun⟩
        intro s3 h3
        refine ⟨?_, fun _ _ _ => nofun, fun _ _ _ => nofun⟩
        intro s4 h4 rec hr hid
        obtain rfl := Answer.created.inj (Res.ok.inj hr)
        refine h4 ?_
        show (kvGet (kvPut strLt s3.policies p.id _) id).isSome = true
        rw [kvGet_put, if_pos (show id = p.id from hid.symm)]
        rfl

end Zanzi
