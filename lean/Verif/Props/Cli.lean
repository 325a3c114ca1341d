import Verif.Lemmas.Cli
import Verif.Props.Rpc

/-
C123: the command line sends what its flags say.
-/

namespace Zanzi

open Spec Cli Wire

/-- C123: what can be said with flags alone: everything but messages missing inside a request, maps with a key twice, and wildcard selectors. -/
theorem C123_sayable_iff (r : Request) : (∃ flags, sends r.method flags none = some r) ↔ Sayable r := by
  constructor
  · rintro ⟨flags, h⟩
    rw [sends_none] at h
    split at h
    · rw [← Option.some.inj h]
      exact request_sayable _ (run_nodup flags {} List.nodup_nil) _
    · cases h
  · exact fun h => ⟨say r, say_said h⟩

/-- C123: and what is said so is answered by the server as the local call. -/
theorem C123_said_and_answered {σ : Type} (limit : Nat) (hl : 6 ≤ limit) (pr : Printer) (srv : Call → σ → Res Answer × σ) (x : Ambient) (r : Request) (hs : Sayable r) (hr : RequestFits limit r) (s : σ) :
    ∃ flags sent, sends r.method flags none = some sent ∧ remote limit pr srv x r.method.path (encRequest sent) s = (outcome pr (srv (r.call x) s).1, (srv (r.call x) s).2) :=
  ⟨say r, r, say_said hs, Props.C73_requests_arrive limit hl pr srv x r hr s⟩

/-- C123: a request given as input is sent as it is, if no flags are given; the messages every request has must be in it. -/
theorem C123_input_alone (r : Request) (h : Filled r) : sends r.method [] (some r) = some r := congrArg some (merge_unset h)

/-- C123: whatever is sent is of the command's method and has those messages. -/
theorem C123_sent_filled (m : Method) (flags : List Flag) (input : Option Request) (hi : ∀ r, input = some r → r.method = m) (r : Request) (h : sends m flags input = some r) : Filled r ∧ r.method = m := by
  unfold sends at h
  split at h
  · rw [← Option.some.inj h]
    refine merge_filled _ ?_
    cases input with
    | none => cases m <;> rfl
    | some i => exact hi i rfl
  · cases h

/-- C123: the order of flags does not matter, if none is given twice and none belongs to another alternative than another. -/
theorem C123_any_order (m : Method) (flags flags' : List Flag) (input : Option Request) (hp : flags.Perm flags') (h : flags.Pairwise fun f g => flagName f ≠ flagName g ∧ ¬ Rivals f g) :
    sends m flags input = sends m flags' input := by
  have hall : flags.all (accepts m) = flags'.all (accepts m) := by
    rw [Bool.eq_iff_iff, List.all_eq_true, List.all_eq_true]
    exact ⟨fun c f hf => c f (hp.mem_iff.mpr hf), fun c f hf => c f (hp.mem_iff.mp hf)⟩
  unfold sends
  rw [hall]
  have := run_perm hp h {}
  unfold run at this
  rw [this]

/-- C123: of a flag given twice the later counts, whatever stands between; only resources and attributes of a policy add up. -/
theorem C123_later_wins (m : Method) (before between after : List Flag) (f g : Flag) (input : Option Request) (hn : flagName f = flagName g) (hr : ¬ Repeatable f) :
    sends m (before ++ f :: between ++ g :: after) input = sends m (before ++ between ++ g :: after) input := by
  have hall : (before ++ f :: between ++ g :: after).all (accepts m) = (before ++ between ++ g :: after).all (accepts m) := by
    rw [Bool.eq_iff_iff]
    simp only [List.all_append, List.all_cons, Bool.and_eq_true, accepts_of_name hn m]
    exact ⟨fun ⟨⟨a, b, c⟩, d⟩ => ⟨⟨a, c⟩, d⟩, fun ⟨⟨a, c⟩, d⟩ => ⟨⟨a, d.1, c⟩, d⟩⟩
  have hrun : run (before ++ f :: between ++ g :: after) {} = run (before ++ between ++ g :: after) {} := by
    unfold run
    simp only [List.foldl_append, List.foldl_cons]
    have := run_last (repeatable_of_name hn hr) between (x := f.set (run before {})) (y := run before {}) (flag_again hn hr _)
    unfold run at this
    rw [this]
  unfold sends
  rw [hall]
  unfold run at hrun
  rw [hrun]

/-- C123 (flags over the input): flags that say a request without empty parts are sent as they say, whatever the input.  Missing: requests with empty parts, and policies given with flags of their own, see below. -/
theorem C123_flags_over_input_partial (r : Request) (hf : FullRequest r) (flags : List Flag) (h : sends r.method flags none = some r) (input : Request) : sends r.method flags (some input) = some r := by
  rw [sends_none] at h
  unfold sends
  split at h
  · next ha =>
    rw [if_pos ha]
    have := Option.some.inj h
    unfold run at this
    rw [this]
    exact congrArg some (mergeRequest_full hf input)
  · cases h

/-- C123: of the alternatives of a choice, a request said with flags takes that of the last flag that belongs to one. -/
theorem C123_last_chooses (m : Method) (flags : List Flag) (r : Request) (h : sends m flags none = some r) (c : Choice) (hc : c = .subjectSpec → alternative .subjectSelector r = some "SubjectSpec") :
    alternative c r = (flags.filterMap (wordAfter c)).getLast? := by
  rw [sends_none] at h
  split at h
  · next ha =>
    have hr := Option.some.inj h
    subst hr
    cases ho : offers c m with
    | true =>
      rw [request_alternative _ ho hc, chosen_run]
      cases c <;> exact Option.or_none
    | false =>
      rw [no_words ho ha]
      exact alternative_none (by rw [request_method]; exact ho)
  · cases h

/-- What a command sends with an input and without. -/
theorem sends_parts {m : Method} {flags : List Flag} {input said sent : Request} (h : sends m flags none = some said) (h' : sends m flags (some input) = some sent) (hi : input.method = m) :
    sent = mergeRequest input said ∧ input.method = said.method ∧ Sayable said := by
  rw [sends_none] at h
  unfold sends at h'
  split at h
  · next ha =>
    rw [if_pos ha] at h'
    have hr := Option.some.inj h
    subst hr
    exact ⟨(Option.some.inj h').symm, by rw [request_method, hi], request_sayable _ (run_nodup flags {} List.nodup_nil) _⟩
  · cases h

/-- C123 (flags over the input): every text in what is sent is what the flags say, or, where they say nothing, what the input says; and no text the flags say is lost.
(A flag set to the empty text says nothing, see below.) -/
theorem C123_part_by_part (m : Method) (flags : List Flag) (input said sent : Request) (hi : input.method = m) (h : sends m flags none = some said) (h' : sends m flags (some input) = some sent) (f : Field) :
    (∀ v, textOf f sent = some v → v = if (textOf f said).getD "" = "" then (textOf f input).getD "" else (textOf f said).getD "") ∧ ((textOf f said).isSome → (textOf f sent).isSome) := by
  obtain ⟨rfl, hm, _⟩ := sends_parts h h' hi
  exact picks_request f hm

/-- C123 (flags over the input): the alternatives the flags choose are taken, else those of the input. -/
theorem C123_choices_over_input (m : Method) (flags : List Flag) (input said sent : Request) (hi : input.method = m) (h : sends m flags none = some said) (h' : sends m flags (some input) = some sent) (c : Choice)
    (hc : c = .subjectSpec → alternative .subjectSelector sent = some "SubjectSpec") : alternative c sent = (alternative c said).or (alternative c input) := by
  obtain ⟨rfl, hm, _⟩ := sends_parts h h' hi
  by_cases hs : c = .subjectSpec
  · subst hs
    exact merge_subjectSpec hm (hc rfl)
  · exact merge_alternative c hs hm

/-- C123 (flags over the input): the attributes of a policy are those of the flags and, for other keys, those of the input; its resources are those of the input followed by those of the flags. -/
theorem C123_policy_over_input (m : Method) (flags : List Flag) (input said sent : Request) (hi : input.method = m) (h : sends m flags none = some said) (h' : sends m flags (some input) = some sent)
    (hp : alternative .definition sent = some "Policy") (k : String) :
    attributeOf k sent = (attributeOf k said).or (attributeOf k input) ∧ resourcesOf sent = resourcesOf input ++ resourcesOf said := by
  obtain ⟨rfl, hm, hs⟩ := sends_parts h h' hi
  exact merge_attributes k hm hs hp

/-- C123 is violated: a flag set to nothing, or to the default of an enum, does not replace what the input says. -/
theorem C123_empty_flag_violated : ∃ (m : Method) (f : Flag) (r r' : Request), sends m [f] none = some r ∧ r ≠ r' ∧ sends m [f] (some r') = some r' :=
  ⟨.getPolicy, .policyId "", .getPolicy "", .getPolicy "p", rfl, fun h => absurd (Request.getPolicy.inj h) (by decide), rfl⟩

/-- C123 is violated: the format of an answer cannot be put back to its default. -/
theorem C123_default_enum_violated : ∀ (p : String) (q : AccessRequest) (f : ExplainFormat), q.object ≠ none → q.subject ≠ none →
    sends .explainCheck [.format .spew] (some (.explainCheck p (some q) f)) = some (.explainCheck p (some q) f) :=
  fun p q f h1 h2 => C123_input_alone (.explainCheck p (some q) f) ⟨q, rfl, h1, h2⟩

/-- C123 is violated: the resources of a policy are added to those of the input, those of the same name too. -/
theorem C123_resources_added_violated (d : Policy) (r : Resource) (a : Bytes) :
    sends .updatePolicy [.definition (.policyResource r)] (some (.updatePolicy (some (.policy d)) a 0)) = some (.updatePolicy (some (.policy { d with resources := d.resources ++ [r] })) a 0) := rfl

/-- C123 is violated: "any object", "any relation" and "any subject" cannot be said with flags: whatever flags are given without an input, the selector sent has no wildcard. -/
theorem C123_wildcard_violated (flags : List Flag) (p : String) (s : Selector) (h : s.object = some .wildcard ∨ s.relation = some .wildcard ∨ s.subject = some .wildcard) :
    sends .deleteRelationships flags none ≠ some (.deleteRelationships p (some s)) ∧ sends .findRelationshipRecords flags none ≠ some (.findRelationshipRecords p (some s)) := by
  have key : ¬ SayableSelector s := by
    rintro ⟨⟨o, ho, ho'⟩, ⟨r, hr, hr'⟩, x, hx, hx', _⟩
    rcases h with h | h | h
    · exact ho' (Option.some.inj (ho.symm.trans h))
    · exact hr' (Option.some.inj (hr.symm.trans h))
    · exact hx' (Option.some.inj (hx.symm.trans h))
  constructor
  · intro c
    obtain ⟨x, hx, hs⟩ := (C123_sayable_iff (.deleteRelationships p (some s))).mp ⟨flags, c⟩
    exact key (Option.some.inj hx ▸ hs)
  · intro c
    obtain ⟨x, hx, hs⟩ := (C123_sayable_iff (.findRelationshipRecords p (some s))).mp ⟨flags, c⟩
    exact key (Option.some.inj hx ▸ hs)

/-! ### Examples -/

/-- `zanzi-cli relationgraph check` with its flags. -/
def exCheckFlags : List Flag :=
  [.policyId "p", .object (.resource "doc"), .object (.id "readme"), .relation "reader", .accessSubject (.resource "user"), .accessSubject (.id "alice")]

example : sends .check exCheckFlags none = some (.check "p" (some ⟨some ⟨"doc", "readme"⟩, "reader", some ⟨"user", "alice"⟩⟩)) := rfl
example : Sayable (.check "p" (some ⟨some ⟨"doc", "readme"⟩, "reader", some ⟨"user", "alice"⟩⟩)) := ⟨_, rfl, nofun, nofun⟩
example : FullRequest (.check "p" (some ⟨some ⟨"doc", "readme"⟩, "reader", some ⟨"user", "alice"⟩⟩)) :=
  ⟨by decide, _, rfl, ⟨_, rfl, by decide, by decide⟩, by decide, _, rfl, by decide, by decide⟩
/-- Whatever the input. -/
example (i : Request) : sends .check exCheckFlags (some i) = some (.check "p" (some ⟨some ⟨"doc", "readme"⟩, "reader", some ⟨"user", "alice"⟩⟩)) :=
  C123_flags_over_input_partial (.check "p" (some ⟨some ⟨"doc", "readme"⟩, "reader", some ⟨"user", "alice"⟩⟩))
    ⟨by decide, _, rfl, ⟨_, rfl, by decide, by decide⟩, by decide, _, rfl, by decide, by decide⟩ exCheckFlags rfl i
/-- A flag of another command. -/
example : sends .check [.strategy 1] none = none := rfl
/-- Flags fill in what the input leaves open. -/
example : sends .check [.accessSubject (.id "bob")] (some (.check "p" (some ⟨some ⟨"doc", "readme"⟩, "reader", some ⟨"user", "alice"⟩⟩))) =
    some (.check "p" (some ⟨some ⟨"doc", "readme"⟩, "reader", some ⟨"user", "bob"⟩⟩)) := rfl
/-- Two orders of flags without rivals. -/
example : ([.object (.resource "doc"), .subject (.entityPart (.id "alice"))] : List Flag).Pairwise fun f g => flagName f ≠ flagName g ∧ ¬ Rivals f g := by
  refine List.pairwise_cons.mpr ⟨?_, List.pairwise_singleton _ _⟩
  intro g hg
  rw [List.mem_singleton] at hg
  subst hg
  refine ⟨by simp [flagName, subjectWords, entityWords], ?_⟩
  rintro ⟨c, a, b, _, ⟨l, hl⟩, ⟨l', hl'⟩⟩
  cases c <;> simp [Choice.words, flagName, entityWords] at hl
/-- Rivals: the last one chooses. -/
example : sends .getRelationship [.subject (.entityPart (.id "alice")), .subject (.resourceSetName "user")] none = some (.getRelationship "" (some ⟨some ⟨"", ""⟩, "", some (.resourceSet "user")⟩)) ∧
    sends .getRelationship [.subject (.resourceSetName "user"), .subject (.entityPart (.id "alice"))] none = some (.getRelationship "" (some ⟨some ⟨"", ""⟩, "", some (.entity ⟨"", "alice"⟩)⟩)) := ⟨rfl, rfl⟩
/-- A policy with its attributes. -/
example : Sayable (.createPolicy (some (.policy { id := "p", resources := [], attributes := [("a", "1"), ("b", "2")] })) []) :=
  ⟨_, rfl, fun p h => by cases h; decide⟩
/-- An input without its messages comes out with them, and is not what was given. -/
example : sends .check [] (some (.check "p" none)) = some (.check "p" (some ⟨some ⟨"", ""⟩, "", some ⟨"", ""⟩⟩)) := rfl

/-- The relation alone chooses the entity set. -/
example : ((([.subject (.entityPart (.id "alice")), .subject (.entitySetRelation "owner")] : List Flag).filterMap (wordAfter .subject)).getLast?) = some "EntitySet" := by decide
/-- Parts from the flags and from the input. -/
example : textOf (.accessSubject .id) (.check "p" (some ⟨some ⟨"doc", "readme"⟩, "reader", some ⟨"user", "bob"⟩⟩)) = some "bob" ∧
    textOf (.accessSubject .resource) (.check "p" (some ⟨some ⟨"doc", "readme"⟩, "reader", some ⟨"user", "bob"⟩⟩)) = some "user" := ⟨rfl, rfl⟩
/-- A policy of which the flags change an attribute. -/
example : ∃ sent, sends .createPolicy [.definition (.policyAttribute "b" "3")] (some (.createPolicy (some (.policy { id := "p", resources := [], attributes := [("a", "1"), ("b", "2")] })) [])) = some sent ∧
    alternative .definition sent = some "Policy" ∧ attributeOf "b" sent = some "3" ∧ attributeOf "a" sent = some "1" :=
  ⟨_, rfl, rfl, by decide, by decide⟩

end Zanzi
