import Verif.Proofs.Reconf
import Verif.Props.Schedule

/-!
# Options applied to a swapper that is in use: C88
-/

namespace Hotswap

section
variable [GoRuntime] {ok : OMachine → Opt → Prop}

/-- **C88.** The settings in force are those of a swapper made with all the options so far, in the order in which they were applied. -/
theorem C88_settings {os : List Opt} {L : List Nat} {s : OMachine} (h : OReachable ok os L s) : s.set = newSwapper os := (oinv h).set

/-- **C88.** What a call does depends on the options applied before it, and on nothing older: `Reload` is refused exactly under static linking; any other call that gets the lock does what it does for a swapper made with these options. -/
theorem C88_calls {os : List Opt} {L : List Nat} {s : OMachine} (h : OReachable ok os L s) (k : Kind) (env : Env) (hr : s.m.running = none) :
    ∃ s', s.step (.go (.call k env)) = some s' ∧ s'.set = s.set ∧
      if k ≠ .load ∧ (newSwapper os).static.isSome = true then s'.m = s.m.log .refused
      else ∃ r, s'.m.running = some r ∧ r.todo = (plan (newSwapper os).config env k s.m.current s.m.next).acts ∧ r.res = (plan (newSwapper os).config env k s.m.current s.m.next).res := by
  rw [← C88_settings h]
  have hgo : ∀ m', s.m.step s.set.config (.call k env) = some m' →
      s.step (.go (.call k env)) = some { s with m := m', naps := s.naps ++ List.replicate (m'.frees.length - s.naps.length) .fresh } := by
    intro m' hm
    simp [OMachine.step, OMachine.awake, hm]
  by_cases hc : refused s.set.config k = true
  · refine ⟨_, hgo _ (Step.refused k env hc).enabled, rfl, ?_⟩
    cases k with
    | load => cases hc
    | reload e => rw [if_pos ⟨by simp, hc⟩]
  · refine ⟨_, hgo _ (Step.call k env (by simpa using hc) hr).enabled, rfl, ?_⟩
    rw [if_neg]
    · exact ⟨_, rfl, rfl, rfl⟩
    · rintro ⟨h1, h2⟩
      cases k with
      | load => exact h1 rfl
      | reload e => exact hc h2

theorem OReachable.any {os : List Opt} {L : List Nat} {s : OMachine} (h : OReachable ok os L s) : OReachable anyTime os L s := by
  induction h with
  | init os hos => exact .init os hos
  | go l _ hl hs ih => exact .go l ih hl hs
  | opt o _ ho _ hs ih => exact .opt o ih ho trivial hs

/-- **C88.** Reference counts are never negative; nothing is freed twice, nothing that is not registered, nothing that is lost; a plugin of the current manager is freed only between the moment at which the delayed free of this manager
was ordered and the publication of its successor (C08). -/
theorem C88_safe {os : List Opt} {L : List Nat} {s : OMachine} (h : OReachable ok os L s) (i : Nat) :
    0 ≤ s.m.refs i ∧ s.m.ends.count i ≤ s.m.begins.count i ∧ s.m.begins.count i ≤ 1 ∧
    (i ∈ s.m.begins → i ∈ s.m.regs ∧ i ∉ L ∧ (i ∈ s.m.currentInsts → s.m.aboutToPublish)) := by
  have ho := oinv h
  obtain ⟨L0, hi⟩ := ho.inv
  have hc := hi.core
  have hbe := hc.begins_eq i
  have hee := hc.ends_eq i
  refine ⟨?_, by omega, ?_, ?_⟩
  · rw [hc.refs_eq]; exact Int.natCast_nonneg _
  · rw [hbe]; split <;> omega
  · intro hm
    have hon : s.m.once i = true := by
      cases hon : s.m.once i with
      | true => rfl
      | false =>
        rw [hon] at hbe
        exact absurd (List.count_pos_iff.mpr hm) (by simp [hbe])
    obtain ⟨h1, h2⟩ := hc.once_ok i hon
    refine ⟨h1, ?_, ?_⟩
    · intro hL
      rw [← ho.lost] at hL
      exact h2 (by unfold Machine.holds; simp [hL])
    · intro hcur
      by_cases hp : s.m.pending.isSome = true
      · cases hrun : s.m.running with
        | none => rw [hi.idle hrun] at hp; cases hp
        | some r =>
          cases hi.run r hrun with
          | fail pre rel todo held idle res pending stage incs order => rw [pending] at hp; cases hp
          | ok pre new todo held idle d res pending stage incs good built => rw [pending] at hp; cases hp
          | spawned new dyn todo held idle d res pending good built => exact ⟨r, new, _, hrun, idle, todo⟩
          | last todo held idle d res pending => rw [pending] at hp; cases hp
      · exact absurd (by unfold Machine.holds Machine.curHeld; rw [if_neg hp]; simp [hcur]) h2

/-- **C88.** On every instance, whatever the options were, the functions of the plugin are called at most once each and in this order. -/
theorem C88_lifecycle {os : List Opt} {L : List Nat} {s : OMachine} (h : OReachable ok os L s) (i : Nat) :
    (s.m.hooksOf i).Sublist [.reloadable, .export, .import, .onLoad, .onInit, .onFree] := (oinv h).hook.hooksOf_sublist i

/-- **C88.** The current manager is always complete (Spec/Manager: names, dependencies, order, live functions and types), also if its predecessor was loaded with other options, and its plugins are set up. -/
theorem C88_current {os : List Opt} {L : List Nat} {s : OMachine} (h : OReachable ok os L s) {pm : Manager} (hc : s.m.current = some pm) :
    GoodManager s.m.next pm ∧ ∀ q ∈ pm.plugins, s.m.hooksOf q.inst = [.reloadable, .export, .import, .onLoad, .onInit] ++ (if q.inst ∈ s.m.begins then [.onFree] else []) := by
  have ho := oinv h
  obtain ⟨L0, hi⟩ := ho.inv
  exact ⟨(hi.cur pm hc).1.good (ho.live.cur pm hc), fun q hq => ho.ready.current_ready ho.hook hc hq⟩

/-- **C88.** Nothing is lost unless static linking is switched on. -/
theorem C88_dynamic_loses_nothing {os : List Opt} {L : List Nat} {s : OMachine} (h : OReachable ok os L s) (hd : ∀ sps, Opt.withStaticPlugins (some sps) ∉ os) : L = [] := by
  induction h with
  | init os hos => rfl
  | opt o _ ho _ hs ih => exact ih (fun sps hm => hd sps (by simp [hm]))
  | @go os L s s' l hr hl hs ih =>
    rw [ih hd, List.append_nil]
    have hst : s.set.static = none := by
      rw [C88_settings hr]
      have key : ∀ (os : List Opt) (st : Settings), (∀ sps, Opt.withStaticPlugins (some sps) ∉ os) → st.static = none → (os.foldl Opt.apply st).static = none := by
        intro os
        induction os with
        | nil => intro st _ h; exact h
        | cons o r ih =>
          intro st ho hst
          refine ih _ (fun sps hm => ho sps (by simp [hm])) ?_
          cases o with
          | withStaticPlugins m =>
            cases m with
            | none => rfl
            | some sps => exact absurd (by simp) (ho sps)
          | _ => exact hst
      exact key os _ hd rfl
    unfold OMachine.loses
    split
    · rw [if_neg]
      rintro ⟨h1, _⟩
      rw [hst] at h1; cases h1
    · rfl

theorem OLater.reach {os : List Opt} {L : List Nat} {s s' : OMachine} (h : OReachable anyTime os L s) (hl : OLater s s') :
    ∃ os' L', OReachable anyTime os' (L' ++ L) s' := by
  induction hl with
  | refl => exact ⟨os, [], h⟩
  | @step s1 s2 l _ ho hs ih =>
    obtain ⟨os', L', hr⟩ := ih
    cases l with
    | opt o => exact ⟨_, L', .opt o hr (ho o rfl) trivial hs⟩
    | go l => exact ⟨_, _, by have := OReachable.go (.go l) hr (by simp) hs; rwa [← List.append_assoc] at this⟩
    | look n => exact ⟨_, _, by have := OReachable.go (.look n) hr (by simp) hs; rwa [← List.append_assoc] at this⟩
    | take n => exact ⟨_, _, by have := OReachable.go (.take n) hr (by simp) hs; rwa [← List.append_assoc] at this⟩

/-- **C88.** What a load under static linking supersedes is never freed, whatever options are applied and whatever is loaded afterwards. -/
theorem C88_never_freed {os : List Opt} {L : List Nat} {s s' s'' : OMachine} {l : OLabel} (h : OReachable ok os L s) (hs : s.step l = some s') {i : Nat} (hi : i ∈ s.loses l) (hl : OLater s' s'') :
    i ∉ s''.m.begins ∧ 0 < s''.m.refs i := by
  have h1 : OReachable anyTime os (s.loses l ++ L) s' := by
    refine .go l h.any ?_ hs
    rintro o rfl
    simp [OMachine.loses] at hi
  obtain ⟨os', L', hr⟩ := hl.reach h1
  have hm : i ∈ L' ++ (s.loses l ++ L) := by simp [hi]
  refine ⟨fun hb => ((C88_safe hr i).2.2.2 hb).2.1 hm, ?_⟩
  have ho := oinv hr
  obtain ⟨L0, hinv⟩ := ho.inv
  rw [hinv.core.refs_eq]
  have : i ∈ s''.m.holds := by
    unfold Machine.holds
    rw [ho.lost]
    simp only [List.mem_append] at hm ⊢
    exact .inr (.inr (.inr hm))
  exact_mod_cast List.count_pos_iff.mpr this

/-- **C88.** Everything else is freed: when the program is at rest, each registered instance that is not in the current manager and was not lost has been freed, once. -/
theorem C88_others_freed {os : List Opt} {L : List Nat} {s : OMachine} (h : OReachable ok os L s) (hq : s.m.Quiet) {i : Nat} (hi : i ∈ s.m.regs) (hc : i ∉ s.m.currentInsts) (hL : i ∉ L) :
    s.m.begins.count i = 1 ∧ s.m.ends.count i = 1 := by
  have ho := oinv h
  obtain ⟨L0, hinv⟩ := ho.inv
  obtain ⟨hr, hf⟩ := hq
  have h1 : s.m.frees.flatMap (·.todo) = [] := List.flatMap_eq_nil_iff.mpr (fun t ht => (hf t ht).1)
  have hh : s.m.holds = s.m.currentInsts ++ L := by
    unfold Machine.holds Machine.curHeld
    rw [h1, hinv.idle hr, hr, ho.lost]
    simp [runHeld]
  have hz : s.m.zs = [] := by
    unfold Machine.zs
    rw [hr]
    simp [runZs]
    intro t ht; rw [(hf t ht).2]; rfl
  have hin : s.m.ins = [] := by
    unfold Machine.ins
    rw [hr]
    simp [runIns]
    intro t ht; rw [(hf t ht).2]; rfl
  have hb := hinv.core.begins_eq i
  have he := hinv.core.ends_eq i
  rw [hin] at he
  rcases hinv.core.done i hi (by rw [hh]; simp [hc, hL]) with hon | hon
  · rw [hon] at hb
    simp at hb he
    omega
  · rw [hz] at hon; cases hon

def Nap.weight : Nap → Nat
  | .fresh => 2
  | .long => 1
  | .asleep => 0

/-- **C88.** The program can always come to rest, without any further call and without any further option. -/
theorem C88_comes_to_rest {os : List Opt} {L : List Nat} {s : OMachine} (h : OReachable ok os L s) : ∃ L' s', OReachable ok os L' s' ∧ OLater s s' ∧ s'.m.Quiet := by
  have key : ∀ (w v : Nat) (s1 : OMachine) (L1 : List Nat), s1.m.weight = w → (s1.naps.map Nap.weight).sum = v → OReachable ok os L1 s1 → OLater s s1 →
      ∃ L' s', OReachable ok os L' s' ∧ OLater s s' ∧ s'.m.Quiet := by
    intro w
    induction w using Nat.strongRecOn with
    | _ w ihw =>
      intro v
      induction v using Nat.strongRecOn with
      | _ v ihv =>
        intro s1 L1 hw hv hr hl
        have hgo : ∀ (l : Label) (m' : Machine) (s0 : OMachine) (L0 : List Nat), s0.awake l = true → Step s0.set.config s0.m l m' → OReachable ok os L0 s0 → OLater s s0 →
            OReachable ok os (s0.loses (.go l) ++ L0) { s0 with m := m', naps := s0.naps ++ List.replicate (m'.frees.length - s0.naps.length) .fresh } ∧
            OLater s { s0 with m := m', naps := s0.naps ++ List.replicate (m'.frees.length - s0.naps.length) .fresh } := by
          intro l m' s0 L0 ha hs h1 h2
          have hst : s0.step (.go l) = some { s0 with m := m', naps := s0.naps ++ List.replicate (m'.frees.length - s0.naps.length) .fresh } := by
            simp [OMachine.step, ha, hs.enabled]
          exact ⟨.go _ h1 (by simp) hst, .step _ h2 (by simp) hst⟩
        cases hrun : s1.m.running with
        | some r =>
          obtain ⟨l, m1, hlab, hs, hlt⟩ := run_step (cfg := s1.set.config) hrun
          obtain ⟨h1, h2⟩ := hgo l m1 s1 L1 (by rcases hlab with rfl | rfl <;> rfl) hs hr hl
          exact ihw m1.weight (hw ▸ hlt) _ _ _ rfl rfl h1 h2
        | none =>
          by_cases hna : ∃ (n : Nat) (nap : Nap), s1.naps[n]? = some nap ∧ nap ≠ Nap.asleep
          · obtain ⟨n, nap, hn, hne⟩ := hna
            have hnw : ∀ m d, (Machine.nap m n d).weight = m.weight := by
              intro m d
              rcases nap_cases m n d with e | ⟨x, t, y, hf, _, e⟩
              · rw [e]
              · rw [e]
                unfold Machine.weight
                rw [hf]
                simp [FreeTask.weight]
            have hset : ∀ nap' : Nap, nap'.weight < nap.weight → ((s1.naps.set n nap').map Nap.weight).sum < v := by
              intro nap' hlt
              obtain ⟨x, y, e1, rfl, e3⟩ := split_at hn
              rw [e3, ← hv, e1]
              simp
              omega
            cases nap with
            | asleep => exact absurd rfl hne
            | fresh =>
              by_cases hlg : 15000000000 < s1.set.freeDelay
              · have hst : s1.step (.look n) = some { s1 with naps := s1.naps.set n .long } := by simp [OMachine.step, hn, hlg]
                exact ihv _ (hset .long (by decide)) { s1 with naps := s1.naps.set n .long } _ hw rfl (.go (.look n) hr (fun _ e => by cases e) hst) (.step (.look n) hl (fun _ e => by cases e) hst)
              · have hst : s1.step (.look n) = some { s1 with m := s1.m.nap n 15000000000, naps := s1.naps.set n .asleep } := by simp [OMachine.step, hn, hlg]
                exact ihv _ (hset .asleep (by decide)) _ _ ((hnw _ _).trans hw) rfl (.go (.look n) hr (fun _ e => by cases e) hst) (.step (.look n) hl (fun _ e => by cases e) hst)
            | long =>
              have hst : s1.step (.take n) = some { s1 with m := s1.m.nap n s1.set.freeDelay.toNat, naps := s1.naps.set n .asleep } := by simp [OMachine.step, hn]
              exact ihv _ (hset .asleep (by decide)) _ _ ((hnw _ _).trans hw) rfl (.go (.take n) hr (fun _ e => by cases e) hst) (.step (.take n) hl (fun _ e => by cases e) hst)
          · by_cases hq : ∀ t ∈ s1.m.frees, t.todo = [] ∧ t.phase = .idle
            · exact ⟨L1, s1, hr, hl, hrun, hq⟩
            · obtain ⟨t, ht⟩ := Classical.not_forall.mp hq
              obtain ⟨ht, hb⟩ := Classical.not_imp.mp ht
              have hb' : t.todo ≠ [] ∨ t.phase ≠ .idle := by
                by_cases h1 : t.todo = []
                · exact .inr (fun h2 => hb ⟨h1, h2⟩)
                · exact .inl h1
              obtain ⟨h1, h2⟩ := hgo (.tick t.due) _ s1 L1 rfl (.tick t.due) hr hl
              obtain ⟨k, m1, hs, hlt⟩ := free_step (cfg := s1.set.config) (m := { s1.m with now := s1.m.now + t.due }) (t := t) ht hb' (Nat.le_add_left _ _)
              have hlen := (oinv hr).len
              have hk : k < s1.naps.length := by
                have := hs.enabled
                simp only [Machine.step, Machine.stepFree] at this
                rw [hlen]
                by_cases hk : k < s1.m.frees.length
                · exact hk
                · rw [List.getElem?_eq_none (by simpa using hk)] at this
                  cases this
              have hasl : s1.naps[k]? = some .asleep := by
                rw [List.getElem?_eq_getElem hk]
                cases hx : s1.naps[k] with
                | asleep => rfl
                | _ => exact absurd ⟨k, _, (List.getElem?_eq_getElem hk).trans (congrArg some hx), by simp⟩ hna
              obtain ⟨h3, h4⟩ := hgo (.free k) m1 _ _ (by
                change (((s1.naps ++ _)[k]?) == some Nap.asleep) = true
                rw [List.getElem?_append_left hk, hasl]; rfl) hs h1 h2
              refine ihw m1.weight ?_ _ _ _ rfl rfl h3 h4
              rw [← hw]; exact hlt
  exact key _ _ s L rfl rfl h .refl

theorem DInv.delay {B : Nat} {os : List Opt} {L : List Nat} {s s' : OMachine} {n : Nat} (hr : OReachable ok os L s) (h : DInv B s) (hs : s.step (.go (.free n)) = some s') :
    ∃ T om, (spawns s.m.trace)[n]? = some (T, om) ∧ T + B ≤ s.m.now := by
  cases ostep_view hs with
  | go l m' awake step =>
    have hasl : s.naps[n]? = some .asleep := by simpa [OMachine.awake] using awake
    have hlt := (List.getElem?_eq_some_iff.mp hasl).1
    have hlen := (oinv hr).len
    have hl2 := h.len
    have hsp : (spawns s.m.trace)[n]? = some ((spawns s.m.trace)[n]'(by omega)) := List.getElem?_eq_getElem _
    refine ⟨_, _, hsp, ?_⟩
    have hd : ∀ t, s.m.frees[n]? = some t → DueOK B s.m.now _ t .asleep := fun t ht => h.due n _ _ t .asleep hsp ht hasl
    cases step with
    | freeDec t x y frees phase i rest todo due => exact Nat.le_trans ((hd t (by rw [frees]; simp)).asleep rfl) due
    | freeSkip t x y frees i phase once => exact (hd t (by rw [frees]; simp)).begun (by rw [phase]; simp)
    | freeBegin t x y frees i phase once => exact (hd t (by rw [frees]; simp)).begun (by rw [phase]; simp)
    | freeEnd t x y frees i phase => exact (hd t (by rw [frees]; simp)).begun (by rw [phase]; simp)

/-- **C88.** Whatever the free delay is, and whenever it is changed: a delayed free does nothing in the first 15 seconds after it was ordered, provided that the host does not set the delay to less than 15 seconds exactly between the two reads. -/
theorem C88_minimum_delay {os : List Opt} {L : List Nat} {s s' : OMachine} {n : Nat} (h : OReachable notBetween os L s) (hs : s.step (.go (.free n)) = some s') :
    ∃ T om, (spawns s.m.trace)[n]? = some (T, om) ∧ T + 15000000000 ≤ s.m.now := by
  have hle : ∀ st : Settings, ((15000000000 : Nat) : Int) ≤ st.delay := by
    intro st; unfold Settings.delay; split <;> omega
  refine (dinv (B := 15000000000) ?_ h (hle _)).delay h hs
  intro s o hok _
  refine ⟨hle _, fun hl h0 => ?_⟩
  cases o with
  | withFreeDelay d =>
    change ((15000000000 : Nat) : Int) ≤ d
    by_cases hd : d < 15000000000
    · exact absurd hl (hok d rfl hd)
    · omega
  | _ => exact h0

/-- **C88.** If the free delay is not changed, it is respected, whatever other options are applied. -/
theorem C88_constant_delay {os : List Opt} {L : List Nat} {s s' : OMachine} {n : Nat} (h : OReachable (fun _ o => ∀ d, o ≠ .withFreeDelay d) os L s) (hs : s.step (.go (.free n)) = some s') :
    ∃ T om, (spawns s.m.trace)[n]? = some (T, om) ∧ (T : Int) + s.set.delay ≤ s.m.now := by
  have hpos : 0 ≤ s.set.delay := by unfold Settings.delay; split <;> omega
  obtain ⟨T, om, h1, h2⟩ := (dinv (B := s.set.delay.toNat) (by
    intro s0 o hok hb
    have : (o.apply s0.set).freeDelay = s0.set.freeDelay := by
      cases o with
      | withFreeDelay d => exact absurd rfl (hok d)
      | _ => rfl
    unfold Settings.delay at hb ⊢
    rw [this] at hb
    exact ⟨hb, fun _ h0 => by rw [this]; exact h0⟩) h (by omega)).delay h hs
  exact ⟨T, om, h1, by omega⟩

end

/-! ### The hypotheses are met by real executions -/

section Examples
open Demo
attribute [local instance] Demo.rt

/-- A sequence of steps. -/
def orun : OMachine → List OLabel → Option OMachine
  | s, [] => some s
  | s, l :: r => match s.step l with
    | none => none
    | some s' => orun s' r

/-- The options among some labels. -/
def optsIn (ls : List OLabel) : List Opt := ls.filterMap (fun l => match l with | .opt o => some o | _ => none)

theorem orun_reachable {ls : List OLabel} {os : List Opt} {L : List Nat} {s s' : OMachine} (h : OReachable anyTime os L s) (hp : ∀ o ∈ optsIn ls, o.Proper) (hr : orun s ls = some s') :
    ∃ os' L', OReachable anyTime os' L' s' := by
  induction ls generalizing s os L with
  | nil => simp [orun] at hr; exact ⟨os, L, hr ▸ h⟩
  | cons l r ih =>
    unfold orun at hr
    cases hs : s.step l with
    | none => rw [hs] at hr; cases hr
    | some s1 =>
      rw [hs] at hr
      cases l with
      | opt o => exact ih (.opt o h (hp o (by simp [optsIn])) trivial hs) (fun o' ho' => hp o' (by simp [optsIn] at ho' ⊢; exact .inr ho')) hr
      | go l => exact ih (.go (.go l) h (by simp) hs) (fun o' ho' => hp o' (by simpa [optsIn] using ho')) hr
      | look n => exact ih (.go (.look n) h (by simp) hs) (fun o' ho' => hp o' (by simpa [optsIn] using ho')) hr
      | take n => exact ih (.go (.take n) h (by simp) hs) (fun o' ho' => hp o' (by simpa [optsIn] using ho')) hr

def ostart : OMachine := ⟨newSwapper [.withReloadCallback true], Machine.init, []⟩

theorem ostart_reachable : OReachable anyTime [.withReloadCallback true] [] ostart := .init _ (by simp [Opt.Proper])

/-- The state after a sequence of steps. -/
def oafter (ls : List OLabel) : OMachine := (orun ostart ls).getD ostart

theorem oafter_reachable {ls : List OLabel} (h : (orun ostart ls).isSome = true) (hp : ∀ o ∈ optsIn ls, o.Proper) : ∃ os L, OReachable anyTime os L (oafter ls) := by
  obtain ⟨s, hs⟩ := Option.isSome_iff_exists.mp h
  refine orun_reachable ostart_reachable hp (s' := oafter ls) ?_
  rw [oafter, hs]; rfl

/-- Two reloads; the free goroutine of the second has seen that the free delay (5 minutes) is more than 15 seconds. -/
def between : List OLabel := (steps1 ++ callSteps (.reload none) (env both (fs 12 23 goodBase goodApp)) 22).map .go ++ [.look 0]

/-- The host sets the free delay to 0; the goroutine reads it again and does not sleep. -/
def hasty : List OLabel := between ++ [.opt (.withFreeDelay 0), .take 0] ++ List.replicate 4 (.go (.free 0))

/-- **C88.** Without the condition on the two reads there is no minimum delay: `OnFree` is called at the moment at which the delayed free was ordered. -/
theorem C88_violated_no_delay : ∃ (os : List Opt) (L : List Nat) (s : OMachine) (T : Nat) (om : Manager) (i : Nat), OReachable anyTime os L s ∧ (T, om) ∈ spawns s.m.trace ∧ i ∈ om.insts ∧
    (T, Ev.freeBegin i) ∈ s.m.trace := by
  obtain ⟨os, L, h⟩ := oafter_reachable (ls := hasty) (by decide +kernel) (by
    intro o ho
    have : o = .withFreeDelay 0 := by
      simpa [optsIn, hasty, between, List.filterMap_append, List.filterMap_map, Function.comp_def, List.filterMap_replicate] using ho
    subst this; trivial)
  have h1 : ((spawns (oafter hasty).m.trace).map (fun e => (e.1, e.2.insts)) == [(0, [2, 1])]) = true := by decide +kernel
  have h2 : ((oafter hasty).m.trace.any (fun e => e.1 == 0 && (match e.2 with | .freeBegin i => i == 1 | _ => false))) = true := by decide +kernel
  have h1 := eq_of_beq h1
  obtain ⟨e, he, hee⟩ := List.mem_map.mp (by rw [h1]; simp : (0, [2, 1]) ∈ (spawns (oafter hasty).m.trace).map (fun e => (e.1, e.2.insts)))
  obtain ⟨T, om⟩ := e
  injection hee with e1 e2
  obtain ⟨⟨t, ev⟩, hx, hy⟩ := List.any_eq_true.mp h2
  simp only [Bool.and_eq_true, beq_iff_eq] at hy
  obtain ⟨e3, hy⟩ := hy
  cases ev with
  | freeBegin i =>
    simp only [beq_iff_eq] at hy
    subst hy
    change T = 0 at e1
    change om.insts = [2, 1] at e2
    subst e1 e3
    exact ⟨os, L, _, 0, om, 1, h, he, by rw [e2]; simp, hx⟩
  | _ => cases hy

/-- `base`, statically linked. -/
def linkedBase : GoMap StaticPlugin := ⟨[("base".toList, ⟨"base".toList, fun _ => false, goodBase⟩)], by decide⟩

/-- Load both plugins from files; link `base` statically and load again; then back to files, and reload. -/
def thereAndBack : List OLabel := steps1.map .go ++ [.opt (.withStaticPlugins (some linkedBase))] ++ (callSteps .load env1 10).map .go ++
  [.opt (.withStaticPlugins none)] ++ (callSteps (.reload none) env2 22).map .go ++ [.look 0, .take 0, .go (.tick 300000000000)] ++ List.replicate 3 (.go (.free 0))

theorem linkedBase_proper : Opt.Proper (.withStaticPlugins (some linkedBase)) := by
  change (linkedBase.vals.map (fun sp => name2key sp.name)).Nodup
  decide +kernel

/-- Instances 1 and 2 (the files of the first load) are lost; 4 (`base`, statically linked) is freed after 5 minutes; 6 and 7 are current. -/
example : (∃ os L, OReachable anyTime os L (oafter thereAndBack)) ∧ (oafter thereAndBack).m.abandoned = [2, 1] ∧ (oafter thereAndBack).m.begins = [4] ∧
    (oafter thereAndBack).m.regs = [1, 2, 4, 6, 7] ∧ (oafter thereAndBack).m.currentInsts = [7, 6] ∧ (oafter thereAndBack).m.counter = 1 := by
  refine ⟨oafter_reachable (by decide +kernel) ?_, by decide +kernel⟩
  intro o ho
  have : o = .withStaticPlugins (some linkedBase) ∨ o = .withStaticPlugins none := by
    simpa [optsIn, thereAndBack, List.filterMap_append, List.filterMap_map, Function.comp_def, List.filterMap_replicate] using ho
  rcases this with rfl | rfl
  · exact linkedBase_proper
  · trivial

end Examples

end Hotswap
