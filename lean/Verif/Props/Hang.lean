import Verif.Proofs.Hang
import Verif.Props.Demo

/-!
# Plugin code and callbacks that never return (C80)
-/

namespace Hotswap

section
variable [GoRuntime] {cfg : Config} {H : Hung}

/-- **C80.** While plugin code or a callback called by a load does not return: `Current()` and `ReloadCounter()` answer at once, and give what they gave before; every call that needs the lock waits; calls that are refused
without the lock are refused as ever. -/
theorem C80_hanging_call {m m' : Machine} (hat : H.At m) (hc : H.call = true) (hl : H.Later cfg m m') :
    (∃ m'', m'.step cfg .read = some m'' ∧ m''.trace = m'.trace ++ [(m'.now, .observed (m.current.map (·.mid)))]) ∧
    (∃ m'', m'.step cfg .readCounter = some m'' ∧ m''.trace = m'.trace ++ [(m'.now, .counted m.counter)]) ∧
    (∀ k env, refused cfg k = false → m'.step cfg (.call k env) = none) ∧
    (∀ k env, refused cfg k = true → ∃ m'', m'.step cfg (.call k env) = some m'' ∧ m''.trace = m'.trace ++ [(m'.now, .refused)]) := by
  obtain ⟨r, hr, _⟩ := hat.call hc
  obtain ⟨h1, h2, h3, _⟩ := hl.call hc hr
  refine ⟨⟨_, rfl, ?_⟩, ⟨_, rfl, ?_⟩, fun k env hk => ?_, fun k env hk => ?_⟩
  · rw [← h2]; rfl
  · rw [← h3]; rfl
  · simp [Machine.step, hk, h1]
  · exact ⟨_, by simp [Machine.step, hk]; rfl, rfl⟩

/-- **C80.** A call that hangs in user code has published nothing, counted nothing and started no delayed free. -/
theorem C80_hanging_call_unpublished (hcfg : cfg.OK) {m : Machine} (h : Reachable cfg m) (hat : H.At m) (hc : H.call = true) :
    ∀ b ∈ lastCallActs m.trace, (∀ pm, b ≠ .publish pm) ∧ (∀ pm, b ≠ .spawnFree pm) ∧ b ≠ .count := by
  obtain ⟨r, hr, hu⟩ := hat.call hc
  have hx := xinv hcfg h.x
  rcases hu with ⟨i, hp⟩ | ⟨hp, a, rest, ht, ha⟩
  · exact hx.unpublished (.cleanup r i hr hp)
  · intro b hb
    have hst : a.stage ≤ 6 := by
      cases a <;> first | (cases ha; done) | simp [Act.stage]
    have := (hx.call r hr).before ht hst b hb
    cases b <;> first | (simp [Act.stage] at this; done) | simp

/-- **C80.** What the hanging goroutines hold — the instances, new and kept, that the load has entered in its manager, and those that come after the plugin whose `OnFree` does not return — is not freed as long as they hang. -/
theorem C80_held_not_freed (hcfg : cfg.OK) {m m' : Machine} (h : Reachable cfg m) (hat : H.At m) (hl : H.Later cfg m m') {i : Nat} (hi : i ∈ H.holding m) :
    i ∉ m'.begins ∧ 0 < m'.refs i := by
  have hr := hl.reach h
  have hh := holding_holds hcfg hr (hat.later hl) (by rw [Hung.holding_later hat hl]; exact hi)
  have hc := (inv hcfg hr).core
  constructor
  · intro hb
    have hbe := hc.begins_eq i
    cases ho : m'.once i with
    | true => exact (hc.once_ok i ho).2 hh
    | false =>
      rw [ho] at hbe
      exact absurd (List.count_pos_iff.mpr hb) (by simp [hbe])
  · rw [hc.refs_eq]
    exact_mod_cast List.count_pos_iff.mpr hh

/-- **C80.** An `OnFree` that does not return is not called a second time. -/
theorem C80_not_called_again (hcfg : cfg.OK) {m m' : Machine} (h : Reachable cfg m) (hat : H.At m) (hl : H.Later cfg m m') {n i : Nat} {t : FreeTask} (hn : n ∈ H.frees)
    (ht : m.frees[n]? = some t) (hp : t.phase = .inside i) : m'.begins.count i = 1 ∧ i ∉ m'.ends := by
  have hr := hl.reach h
  have hc := (inv hcfg hr).core
  have hin : i ∈ m'.ins := by
    unfold Machine.ins
    exact List.mem_append_right _ (List.mem_flatMap.mpr ⟨t, List.mem_of_getElem? (hl.task hn ht), by rw [hp]; simp [Phase.ins]⟩)
  have hbe := hc.begins_eq i
  have hee := hc.ends_eq i
  rw [hc.inside i hin] at hbe
  have hp := List.count_pos_iff.mpr hin
  refine ⟨by simpa using hbe, fun he => ?_⟩
  have := List.count_pos_iff.mpr he
  simp at hbe
  omega

/-- **C80.** Nobody else waits for an `OnFree` that does not return: a call can begin whenever no call is running, a running call that does not hang itself can go on, and so can every other free goroutine after its delay. -/
theorem C80_nobody_waits_for_free (m : Machine) :
    (m.running = none → ∀ k env, ∃ m', m.step cfg (.call k env) = some m') ∧
    (∀ r, m.running = some r → ∃ l m', (l = Label.act ∨ l = Label.ret) ∧ m.step cfg l = some m') ∧
    (∀ n t, m.frees[n]? = some t → t.todo ≠ [] ∨ t.phase ≠ .idle → t.due ≤ m.now → ∃ m', m.step cfg (.free n) = some m') := by
  refine ⟨fun hr k env => ?_, fun r hr => ?_, fun n t ht hb hd => ?_⟩
  · cases hk : refused cfg k with
    | true => exact ⟨_, (Step.refused k env hk).enabled⟩
    | false => exact ⟨_, (Step.call k env hk hr).enabled⟩
  · obtain ⟨l, m', hl, hs, _⟩ := run_step (cfg := cfg) hr
    exact ⟨l, m', hl, hs.enabled⟩
  · obtain ⟨m', hs, _⟩ := free_step_at (cfg := cfg) ht hb hd
    exact ⟨m', hs.enabled⟩

/-- **C80.** Whatever hangs, everything else can be brought to its end without any further call … -/
theorem C80_rest_reachable (m : Machine) : ∃ ls m', m.steps cfg ls = some m' ∧ H.Rest m' ∧ ∀ l ∈ ls, H.allows l ∧ l.isCall = false :=
  hung_drain H _ m rfl

/-- **C80.** … and then each instance that is neither in the current manager nor held by a hanging goroutine has been freed: `OnFree` has been called once, and has returned unless it is one of those that hang. -/
theorem C80_others_freed (hcfg : cfg.OK) (hst : cfg.static = none) {m : Machine} (h : Reachable cfg m) (hat : H.At m) (hq : H.Rest m) {i : Nat} (hi : i ∈ m.regs)
    (hcur : i ∉ m.currentInsts) (hhold : i ∉ H.holding m) :
    m.begins.count i = 1 ∧ (m.ends.count i = 1 ∨ (∃ r, m.running = some r ∧ r.phase = .inside i) ∨ ∃ n ∈ H.frees, ∃ t, m.frees[n]? = some t ∧ t.phase = .inside i) := by
  have hinv := inv hcfg h
  have hc := hinv.core
  have hpend : m.pending = none := by
    cases hcall : H.call with
    | false => exact hinv.idle (hq.call hcall)
    | true =>
      obtain ⟨r, hr, hu⟩ := hat.call hcall
      cases hinv.run r hr with
      | fail pre rel todo held idle res pending stage incs order => exact pending
      | ok pre new todo held idle d res pending stage incs good built => exact pending
      | spawned new dyn todo held idle d res pending good built =>
        rcases hu with ⟨j, hp⟩ | ⟨_, a, rest, ht, ha⟩
        · rw [idle] at hp; cases hp
        · rw [todo] at ht; cases ht; cases ha
      | last todo held idle d res pending => exact pending
  have hidx : ∀ t ∈ m.frees, (∃ n ∈ H.frees, m.frees[n]? = some t) ∨ (t.todo = [] ∧ t.phase = .idle) := by
    intro t ht
    obtain ⟨n, hn⟩ := List.mem_iff_getElem?.mp ht
    by_cases hm : n ∈ H.frees
    · exact .inl ⟨n, hm, hn⟩
    · exact .inr (hq.frees n t hm hn)
  have hrun : i ∉ runHeld m.running := by
    intro hm
    cases hr : m.running with
    | none => rw [hr] at hm; cases hm
    | some r =>
      have hcall : H.call = true := by
        cases hcall : H.call with
        | true => rfl
        | false => rw [hq.call hcall] at hr; cases hr
      rw [hr] at hm
      refine hhold ?_
      unfold Hung.holding
      rw [hcall, ← held_owed hcfg h hr]
      exact List.mem_append_left _ hm
  have hnh : i ∉ m.holds := by
    unfold Machine.holds Machine.curHeld
    rw [hpend, hinv.dyn (by rw [hst]; rfl)]
    simp only [List.mem_append, not_or]
    refine ⟨?_, by simpa using hcur, hrun, by simp⟩
    intro hm
    obtain ⟨t, ht, hm⟩ := List.mem_flatMap.mp hm
    rcases hidx t ht with ⟨n, hn, hg⟩ | ⟨h0, _⟩
    · refine hhold ?_
      unfold Hung.holding
      refine List.mem_append_right _ (List.mem_flatMap.mpr ⟨n, hn, ?_⟩)
      rw [hg]; exact hm
    · rw [h0] at hm; cases hm
  have hnz : i ∉ m.zs := by
    unfold Machine.zs
    simp only [List.mem_append, not_or]
    constructor
    · intro hm
      cases hr : m.running with
      | none => rw [hr] at hm; cases hm
      | some r =>
        rw [hr] at hm
        have hcall : H.call = true := by
          cases hcall : H.call with
          | true => rfl
          | false => rw [hq.call hcall] at hr; cases hr
        obtain ⟨r', hr', hu⟩ := hat.call hcall
        rw [hr] at hr'; cases hr'
        change i ∈ r.phase.zs at hm
        rcases hu with ⟨j, hp⟩ | ⟨hp, _⟩ <;> rw [hp] at hm <;> cases hm
    · intro hm
      obtain ⟨t, ht, hm⟩ := List.mem_flatMap.mp hm
      rcases hidx t ht with ⟨n, hn, hg⟩ | ⟨_, h0⟩
      · obtain ⟨t', j, hg', hp⟩ := hat.frees n hn
        rw [hg] at hg'; cases hg'
        rw [hp] at hm; cases hm
      · rw [h0] at hm; cases hm
  have ho : m.once i = true := by
    rcases hc.done i hi hnh with ho | ho
    · exact ho
    · exact absurd ho hnz
  have hbe := hc.begins_eq i
  have hee := hc.ends_eq i
  rw [ho] at hbe
  simp at hbe
  refine ⟨hbe, ?_⟩
  by_cases hin : i ∈ m.ins
  · right
    unfold Machine.ins at hin
    rcases List.mem_append.mp hin with hm | hm
    · left
      cases hr : m.running with
      | none => rw [hr] at hm; cases hm
      | some r =>
        rw [hr] at hm
        refine ⟨r, rfl, ?_⟩
        change i ∈ r.phase.ins at hm
        cases hp : r.phase with
        | inside j => rw [hp] at hm; simp [Phase.ins] at hm; rw [hm]
        | idle => rw [hp] at hm; cases hm
        | zero j => rw [hp] at hm; cases hm
    · right
      obtain ⟨t, ht, hm⟩ := List.mem_flatMap.mp hm
      rcases hidx t ht with ⟨n, hn, hg⟩ | ⟨_, h0⟩
      · refine ⟨n, hn, t, hg, ?_⟩
        cases hp : t.phase with
        | inside j => rw [hp] at hm; simp [Phase.ins] at hm; rw [hm]
        | idle => rw [hp] at hm; cases hm
        | zero j => rw [hp] at hm; cases hm
      · rw [h0] at hm; cases hm
  · left
    have : m.ins.count i = 0 := List.count_eq_zero.mpr hin
    omega

end

/-! ### The hypotheses are met by real executions -/

section Examples
open Demo
attribute [local instance] Demo.rt

/-- Load `base` and `app`; reload with a changed `app`, as far as the call of its `OnInit`. -/
def hangSteps1 : List Label := steps1 ++ Label.call (.reload none) env2 :: List.replicate 11 Label.act
/-- Load both plugins, reload both changed, wait; the free goroutine is in `OnFree` of `app`. -/
def hangSteps2 : List Label := steps1 ++ callSteps (.reload none) (env both (fs 12 23 goodBase goodApp)) 22 ++ Label.tick 15000000000 :: List.replicate 2 (Label.free 0)
/-- Reload both again; the second manager is freed. -/
def hangSteps3 : List Label := callSteps (.reload none) (env both (fs 13 24 goodBase goodApp)) 22 ++ Label.tick 15000000000 :: List.replicate 6 (Label.free 1)

theorem hang1_reachable : Reachable cfg (after cfg hangSteps1) := after_reachable (by decide +kernel)
theorem hang2_reachable : Reachable cfg (after cfg hangSteps2) := after_reachable (by decide +kernel)

/-- `OnInit` of the new `app` (instance 4) never returns; the load holds it and the kept instance 2. -/
example : (⟨true, []⟩ : Hung).At (after cfg hangSteps1) ∧ (⟨true, []⟩ : Hung).holding (after cfg hangSteps1) = [4, 2] ∧ (after cfg hangSteps1).currentInsts = [2, 1] := by
  have h : (after cfg hangSteps1).running.map (fun r => (r.phase, r.todo.head?.map Act.userCode)) = some (.idle, some true) := by decide +kernel
  refine ⟨⟨fun _ => ?_, by simp⟩, by decide +kernel, by decide +kernel⟩
  cases hr : (after cfg hangSteps1).running with
  | none => rw [hr] at h; cases h
  | some r =>
    rw [hr] at h
    simp only [Option.map_some, Option.some.injEq, Prod.mk.injEq] at h
    refine ⟨r, rfl, .inr ⟨h.1, ?_⟩⟩
    cases ht : r.todo with
    | nil => rw [ht] at h; cases h.2
    | cons a rest =>
      rw [ht] at h
      simp at h
      exact ⟨a, rest, rfl, h.2⟩

theorem hang2_at : (⟨false, [0]⟩ : Hung).At (after cfg hangSteps2) := by
  have h : (after cfg hangSteps2).frees[0]?.map (fun t => (t.phase, t.todo)) = some (.inside 1, [2]) := by decide +kernel
  refine ⟨(fun h => nomatch h), fun n hn => ?_⟩
  simp at hn
  subst hn
  cases ht : (after cfg hangSteps2).frees[0]? with
  | none => rw [ht] at h; cases h
  | some t =>
    rw [ht] at h
    simp only [Option.map_some, Option.some.injEq, Prod.mk.injEq] at h
    exact ⟨t, 1, rfl, h.1⟩

/-- `OnFree` of `app` (instance 1) never returns: `base` (instance 2) is never freed; a later load works, and the delayed free it starts frees both plugins of the second manager. -/
example : (⟨false, [0]⟩ : Hung).holding (after cfg hangSteps2) = [2] ∧ (after cfg (hangSteps2 ++ hangSteps3)).begins = [1, 4, 5] ∧ (after cfg (hangSteps2 ++ hangSteps3)).ends = [4, 5] ∧
    (after cfg (hangSteps2 ++ hangSteps3)).regs = [1, 2, 4, 5, 7, 8] ∧ (after cfg (hangSteps2 ++ hangSteps3)).currentInsts = [8, 7] := by decide +kernel

end Examples

end Hotswap
