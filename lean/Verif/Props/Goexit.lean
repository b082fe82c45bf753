import Verif.Proofs.Goexit
import Verif.Proofs.Drain
import Verif.Props.Schedule

/-!
# Plugin code that ends its goroutine with `runtime.Goexit`: C77
-/

namespace Hotswap

section
variable [GoRuntime]

/-- **C77.** The moments at which this can happen, without any exception: the load is in one of the functions of a plugin, in a reload callback, or (in the cleanup after a failure) in an `OnFree`. -/
theorem C77_when {cfg : Config} (m : Machine) : (∃ m', m.xstep cfg .exitCall = some m') ↔
    ∃ r, m.running = some r ∧ ((∃ i, r.phase = .inside i) ∨ (r.phase = .idle ∧ ∃ a rest, r.todo = a :: rest ∧ RunsFunc a)) := by
  have hmay : ∀ a : Act, a.mayExit = true ↔ RunsFunc a := by
    intro a
    constructor
    · intro h
      cases a <;> first | (exact Bool.noConfusion h; done) | constructor
    · intro h; cases h <;> rfl
  change (∃ m', m.exitCall = some m') ↔ _
  unfold Machine.exitCall
  cases hr : m.running with
  | none =>
    constructor
    · rintro ⟨m', h⟩; cases h
    · rintro ⟨r, h, _⟩; cases h
  | some r =>
    constructor
    · rintro ⟨m', h⟩
      refine ⟨r, rfl, ?_⟩
      cases hp : r.phase with
      | zero i => simp only [hp] at h; cases h
      | inside i => exact .inl ⟨i, rfl⟩
      | idle =>
        cases ht : r.todo with
        | nil => simp only [hp, ht] at h; cases h
        | cons a rest =>
          simp only [hp, ht] at h
          split at h
          · rename_i hm; exact .inr ⟨rfl, a, rest, rfl, (hmay a).mp hm⟩
          · cases h
    · rintro ⟨r', h, hc⟩
      injection h with h
      subst h
      rcases hc with ⟨i, hp⟩ | ⟨hp, a, rest, ht, hm⟩
      · simp only [hp]; exact ⟨_, rfl⟩
      · simp only [hp, ht, (hmay a).mpr hm, if_true]; exact ⟨_, rfl⟩

/-- **C77.** A free goroutine is ended by an `OnFree` that it is in, and only then. -/
theorem C77_when_free {cfg : Config} (m : Machine) (n : Nat) : (∃ m', m.xstep cfg (.exitFree n) = some m') ↔ ∃ t i, m.frees[n]? = some t ∧ t.phase = .inside i := by
  change (∃ m', m.exitFree n = some m') ↔ _
  unfold Machine.exitFree
  cases ht : m.frees[n]? with
  | none =>
    constructor
    · rintro ⟨m', h⟩; cases h
    · rintro ⟨t, i, h, _⟩; cases h
  | some t =>
    constructor
    · rintro ⟨m', h⟩
      cases hp : t.phase with
      | inside i => exact ⟨t, i, rfl, hp⟩
      | zero i => simp only [hp] at h; cases h
      | idle => simp only [hp] at h; cases h
    · rintro ⟨t', i, h, hp⟩
      injection h with h
      subst h
      simp only [hp]
      exact ⟨_, rfl⟩

/-- **C77.** When code called by a load ends the goroutine, the load never returns, and it has published nothing and counted nothing; the
current manager, the counter, the reference counts and the delayed frees are what they were, and the lock is free: any call can begin. -/
theorem C77_call_ends {cfg : Config} (hcfg : cfg.OK) {m m' : Machine} {L : List Nat} (h : XReachable cfg m L) (hs : m.xstep cfg .exitCall = some m') :
    (∀ b ∈ lastCallActs m.trace, (∀ pm, b ≠ .publish pm) ∧ (∀ pm, b ≠ .spawnFree pm) ∧ b ≠ .count) ∧
    (∀ t k r, (t, Ev.returned k r) ∈ m'.trace → (t, Ev.returned k r) ∈ m.trace) ∧
    m'.current = m.current ∧ m'.counter = m.counter ∧ m'.refs = m.refs ∧ m'.frees = m.frees ∧
    ∀ k env, ∃ m'', m'.xstep cfg (.go (.call k env)) = some m'' := by
  have hx := xstep_view hs
  have key : (∀ t k r, (t, Ev.returned k r) ∈ m'.trace → (t, Ev.returned k r) ∈ m.trace) ∧
      m'.current = m.current ∧ m'.counter = m.counter ∧ m'.refs = m.refs ∧ m'.frees = m.frees ∧ m'.running = none := by
    cases hx with
    | hook r a rest run phase todo may =>
      refine ⟨?_, rfl, rfl, rfl, rfl, rfl⟩
      intro t k r' hm
      change _ ∈ m.trace ++ [_] at hm
      simpa using hm
    | cleanup r i run phase =>
      refine ⟨?_, rfl, rfl, rfl, rfl, rfl⟩
      intro t k r' hm
      change _ ∈ m.trace ++ [_] at hm
      simpa using hm
  obtain ⟨h1, h2, h3, h4, h5, h6⟩ := key
  exact ⟨(xinv hcfg h).unpublished hx, h1, h2, h3, h4, h5, fun k env => C38_call_enabled h6 k env⟩

/-- **C77.** What such a load loses. If the function that ends the goroutine was called before the load failed, these are all the instances the
load had entered in its manager, the new ones and the kept ones. -/
theorem C77_all_lost {cfg : Config} (hcfg : cfg.OK) {m m' : Machine} {L : List Nat} (h : XReachable cfg m L) (hs : m.xstep cfg .exitCall = some m')
    (hb : ∀ i, Act.release i ∉ lastCallActs m.trace) (i : Nat) :
    i ∈ m.loses .exitCall ↔ Act.register i ∈ lastCallActs m.trace ∨ Act.inc i ∈ lastCallActs m.trace := by
  have hu := (xinv hcfg h).unpublished (xstep_view hs)
  have hst : ∀ b ∈ lastCallActs m.trace, b.stage ≤ 6 := by
    intro b hm
    obtain ⟨h1, h2, h3⟩ := hu b hm
    cases b with
    | release i => exact absurd hm (hb i)
    | spawnFree pm => exact absurd rfl (h2 pm)
    | publish pm => exact absurd rfl (h1 pm)
    | count => exact absurd rfl h3
    | _ => simp [Act.stage]
  change i ∈ owed (lastCallActs m.trace) ↔ _
  rw [owed_acquired _ hst, List.mem_reverse]
  unfold acquired
  rw [List.mem_filterMap]
  constructor
  · rintro ⟨a, ha, he⟩
    cases a <;> simp [acquires] at he
    · subst he; exact .inl ha
    · subst he; exact .inr ha
  · rintro (ha | ha)
    · exact ⟨_, ha, rfl⟩
    · exact ⟨_, ha, rfl⟩

/-- **C77.** Nothing is freed twice, nothing is freed that is not registered, that is in the current manager, or whose references are lost; counts
are never negative. -/
theorem C77_safe {cfg : Config} (hcfg : cfg.OK) {m : Machine} {L : List Nat} (h : XReachable cfg m L) (i : Nat) :
    0 ≤ m.refs i ∧ m.ends.count i ≤ m.begins.count i ∧ m.begins.count i ≤ 1 ∧
    (i ∈ m.begins → i ∈ m.regs ∧ i ∉ L ∧ (m.running = none → i ∉ m.currentInsts)) := by
  have hx := xinv hcfg h
  have hc := hx.inv.core
  have hbe := hc.begins_eq i
  have hee := hc.ends_eq i
  refine ⟨?_, by omega, ?_, ?_⟩
  · rw [hc.refs_eq]; exact Int.natCast_nonneg _
  · rw [hbe]; split <;> omega
  · intro hm
    have ho : m.once i = true := by
      cases ho : m.once i with
      | true => rfl
      | false =>
        rw [ho] at hbe
        exact absurd (List.count_pos_iff.mpr hm) (by simp [hbe])
    obtain ⟨h1, h2⟩ := hc.once_ok i ho
    refine ⟨h1, ?_, ?_⟩
    · intro hL
      have := hx.lost i
      have hp := List.count_pos_iff.mpr hL
      exact h2 (by
        unfold Machine.holds
        simp only [List.mem_append]
        exact .inr (.inr (.inr (List.count_pos_iff.mp (by omega)))))
    · intro hr hcur
      exact h2 (by
        unfold Machine.holds Machine.curHeld
        rw [hx.inv.idle hr]
        simp only [List.mem_append]
        exact .inr (.inl hcur))

theorem XLater.reach {cfg : Config} {m m' : Machine} {L : List Nat} (h : XReachable cfg m L) (hl : XLater cfg m m') :
    ∃ L', XReachable cfg m' (L' ++ L) := by
  induction hl with
  | refl => exact ⟨[], h⟩
  | step l _ hs ih =>
    obtain ⟨L', hr⟩ := ih
    exact ⟨_, by rw [List.append_assoc]; exact .step l hr hs⟩

/-- **C77.** What is lost is never freed, whatever happens afterwards: neither the instances of the load that did not return, including those of the
current manager it had kept, nor those a delayed-free goroutine had not yet released when an `OnFree` ended it. -/
theorem C77_never_freed {cfg : Config} (hcfg : cfg.OK) {m m' m'' : Machine} {L : List Nat} (h : XReachable cfg m L) {l : XLabel}
    (hs : m.xstep cfg l = some m') {i : Nat} (hi : i ∈ m.loses l) (hl : XLater cfg m' m'') : i ∉ m''.begins ∧ 0 < m''.refs i := by
  obtain ⟨L', hr⟩ := hl.reach (.step l h hs)
  have hi' : i ∈ L' ++ (m.loses l ++ L) := by simp [hi]
  refine ⟨fun hb => ((C77_safe hcfg hr i).2.2.2 hb).2.1 hi', ?_⟩
  have hx := xinv hcfg hr
  rw [hx.inv.core.refs_eq]
  have h1 := hx.lost i
  have h2 := List.count_pos_iff.mpr hi'
  have : 0 < m''.holds.count i := by
    unfold Machine.holds
    simp only [List.count_append]
    omega
  exact_mod_cast this

/-- **C77.** Everything else is freed: when the program is at rest, each registered instance that is not in the current manager and not lost has been
freed, once. -/
theorem C77_others_freed {cfg : Config} (hcfg : cfg.OK) (hst : cfg.static = none) {m : Machine} {L : List Nat} (h : XReachable cfg m L) (hq : m.Quiet)
    {i : Nat} (hi : i ∈ m.regs) (hc : i ∉ m.currentInsts) (hL : i ∉ L) : m.begins.count i = 1 ∧ m.ends.count i = 1 := by
  have hinv := (xinv hcfg h).inv
  obtain ⟨hr, hf⟩ := hq
  have h1 : m.frees.flatMap (·.todo) = [] := List.flatMap_eq_nil_iff.mpr (fun t ht => (hf t ht).1)
  have hh : m.holds = m.currentInsts ++ L := by
    unfold Machine.holds Machine.curHeld
    rw [h1, hinv.idle hr, hr, hinv.dyn (by rw [hst]; rfl)]
    simp [runHeld]
  have hz : m.zs = [] := by
    unfold Machine.zs
    rw [hr]
    simp [runZs]
    intro t ht; rw [(hf t ht).2]; rfl
  have hin : m.ins = [] := by
    unfold Machine.ins
    rw [hr]
    simp [runIns]
    intro t ht; rw [(hf t ht).2]; rfl
  have hb := hinv.core.begins_eq i
  have he := hinv.core.ends_eq i
  rw [hin] at he
  rcases hinv.core.done i hi (by rw [hh]; simp [hc, hL]) with ho | ho
  · rw [ho] at hb
    simp at hb he
    omega
  · rw [hz] at ho; cases ho

/-- **C77.** The program can still come to rest, without any further call and without losing anything more. -/
theorem C77_comes_to_rest {cfg : Config} {m : Machine} {L : List Nat} (h : XReachable cfg m L) :
    ∃ m', XLater cfg m m' ∧ XReachable cfg m' L ∧ m'.Quiet := by
  obtain ⟨ls, m', hs, hq, -⟩ := drain (cfg := cfg) m.weight m rfl
  have go : ∀ (ls : List Label) (m1 : Machine), XLater cfg m m1 → XReachable cfg m1 L → m1.steps cfg ls = some m' → XLater cfg m m' ∧ XReachable cfg m' L := by
    intro ls
    induction ls with
    | nil => intro m1 h1 h2 h3; cases h3; exact ⟨h1, h2⟩
    | cons l r ih =>
      intro m1 h1 h2 h3
      unfold Machine.steps at h3
      cases hl : m1.step cfg l with
      | none => rw [hl] at h3; cases h3
      | some m2 => rw [hl] at h3; exact ih m2 (.step (.go l) h1 hl) (.step (.go l) h2 hl) h3
  obtain ⟨h1, h2⟩ := go ls m .refl h hs
  exact ⟨m', h1, h2, hq⟩

end

/-! ### The hypotheses are met by real executions -/

section Examples
open Demo
attribute [local instance] Demo.rt

/-- A sequence of steps and what they lose. -/
def xrun (c : Config) : Machine × List Nat → List XLabel → Option (Machine × List Nat)
  | s, [] => some s
  | (m, L), l :: r => match m.xstep c l with
    | none => none
    | some m' => xrun c (m', m.loses l ++ L) r

theorem xrun_reachable {c : Config} {ls : List XLabel} {s s' : Machine × List Nat} (h : XReachable c s.1 s.2) (hr : xrun c s ls = some s') :
    XReachable c s'.1 s'.2 := by
  induction ls generalizing s with
  | nil => simp [xrun] at hr; exact hr ▸ h
  | cons l r ih =>
    obtain ⟨m, L⟩ := s
    unfold xrun at hr
    cases hs : m.xstep c l with
    | none => rw [hs] at hr; cases hr
    | some m1 => rw [hs] at hr; exact ih (s := (m1, m.loses l ++ L)) (.step l h hs) hr

/-- The state after a sequence of steps. -/
def xafter (ls : List XLabel) : Machine × List Nat := (xrun cfg (Machine.init, []) ls).getD (Machine.init, [])

theorem xafter_reachable {ls : List XLabel} (h : (xrun cfg (Machine.init, []) ls).isSome = true) : XReachable cfg (xafter ls).1 (xafter ls).2 := by
  obtain ⟨s, hs⟩ := Option.isSome_iff_exists.mp h
  refine xrun_reachable (s := (Machine.init, [])) .init (ls := ls) ?_
  rw [xafter, hs]; rfl

/-- Load `base` and `app`; reload with a changed `app`, as far as the call of its `OnInit`. -/
def exitSteps1 : List XLabel := (steps1 ++ Label.call (.reload none) env2 :: List.replicate 11 Label.act).map .go
/-- There the goroutine ends. -/
def exitSteps2 : List XLabel := exitSteps1 ++ [.exitCall]
/-- Both plugins have changed again: another reload, and the delayed free of the first manager. -/
def exitSteps3 : List XLabel := exitSteps2 ++
  (callSteps (.reload none) (env both (fs 12 23 goodBase goodApp)) 22 ++ Label.tick 15000000000 :: List.replicate 4 (Label.free 0)).map .go
/-- Load both plugins, reload both changed; the `OnFree` of `app` ends the free goroutine, and `base` is not visited. -/
def exitSteps4 : List XLabel := (steps1 ++ callSteps (.reload none) (env both (fs 12 23 goodBase goodApp)) 22 ++
  Label.tick 15000000000 :: List.replicate 2 (Label.free 0)).map .go ++ [.exitFree 0]

theorem exit1_reachable : XReachable cfg (xafter exitSteps1).1 (xafter exitSteps1).2 := xafter_reachable (by decide +kernel)
theorem exit2_reachable : XReachable cfg (xafter exitSteps2).1 (xafter exitSteps2).2 := xafter_reachable (by decide +kernel)
theorem exit3_reachable : XReachable cfg (xafter exitSteps3).1 (xafter exitSteps3).2 := xafter_reachable (by decide +kernel)
theorem exit4_reachable : XReachable cfg (xafter exitSteps4).1 (xafter exitSteps4).2 := xafter_reachable (by decide +kernel)

/-- The reload has called `OnLoad` of the new `app` (instance 4) and is about to call its `OnInit`; it ends there. -/
example : ((xafter exitSteps1).1.xstep cfg .exitCall).isSome = true ∧ (xafter exitSteps1).1.loses .exitCall = [4, 2] ∧
    (xafter exitSteps1).1.hooksOf 4 = [.reloadable, .export, .import, .onLoad] ∧
    (lastCallActs (xafter exitSteps1).1.trace).all (fun a => a.stage ≤ 5) = true := by decide +kernel

/-- The manager of the first load is still current; instances 4 and 2 are lost. -/
example : (xafter exitSteps2).2 = [4, 2] ∧ (xafter exitSteps2).1.currentInsts = [2, 1] ∧ (xafter exitSteps2).1.refs 2 = 2 ∧
    (xafter exitSteps2).1.refs 4 = 1 ∧ (xafter exitSteps2).1.running.isNone = true := by decide +kernel

/-- At the end the program is at rest; of the superseded instances 1, 2 and 4 only 1 has been freed. -/
example : (xafter exitSteps3).2 = [4, 2] ∧ (xafter exitSteps3).1.regs = [1, 2, 4, 6, 7] ∧ (xafter exitSteps3).1.currentInsts = [7, 6] ∧
    (xafter exitSteps3).1.begins = [1] ∧ (xafter exitSteps3).1.running.isNone = true ∧
    (xafter exitSteps3).1.frees.all (fun t => t.todo.isEmpty && t.phase == .idle) = true := by decide +kernel

/-- Instance 2 is lost by the goroutine. -/
example : (xafter exitSteps4).2 = [2] ∧ (xafter exitSteps4).1.begins = [1] ∧ (xafter exitSteps4).1.ends = [1] ∧ (xafter exitSteps4).1.refs 2 = 1 := by decide +kernel

end Examples

end Hotswap
