import Verif.Proofs.LogHist
import Verif.Props.Goexit
import Verif.Props.LogRelease

/-!
# Histories that go on after the logger has panicked: C97

`L` is what has been lost and `Z` are the plugins at whose announcement the logger has panicked (Spec/LogHist).
-/

namespace Hotswap

section
variable [GoRuntime]

theorem XInv.safe {cfg : Config} {m : Machine} {L : List Nat} (hx : XInv cfg m L) (i : Nat) :
    0 ≤ m.refs i ∧ m.ends.count i ≤ m.begins.count i ∧ m.begins.count i ≤ 1 ∧
    (i ∈ m.begins → i ∈ m.regs ∧ i ∉ m.holds ∧ i ∉ L ∧ (m.running = none → i ∉ m.currentInsts)) := by
  have hc := hx.inv.core
  have hbe := hc.begins_eq i
  have hee := hc.ends_eq i
  refine ⟨?_, by omega, ?_, ?_⟩
  · rw [hc.refs_eq]; exact Int.natCast_nonneg _
  · rw [hbe]; split <;> omega
  · intro hm
    have ho : m.once i = true := by
      cases ho : m.once i with
      | true => rfl
      | false =>
        rw [ho] at hbe
        exact absurd (List.count_pos_iff.mpr hm) (by simp [hbe])
    obtain ⟨h1, h2⟩ := hc.once_ok i ho
    refine ⟨h1, h2, ?_, ?_⟩
    · intro hL
      have := hx.lost i
      have hp := List.count_pos_iff.mpr hL
      exact h2 (by
        unfold Machine.holds
        simp only [List.mem_append]
        exact .inr (.inr (.inr (List.count_pos_iff.mp (by omega)))))
    · intro hr hcur
      exact h2 (by
        unfold Machine.holds Machine.curHeld
        rw [hx.inv.idle hr]
        simp only [List.mem_append]
        exact .inr (.inl hcur))

/-- **C97.** Counts are never negative; no `OnFree` is called twice, and none is called of an instance that is not registered, that is in the current manager, whose references are lost, or at whose announcement the logger has panicked. -/
theorem C97_safe {cfg : Config} (hcfg : cfg.OK) {m : Machine} {L Z : List Nat} (h : YReachable cfg m L Z) (i : Nat) :
    0 ≤ m.refs i ∧ m.ends.count i ≤ m.begins.count i ∧ m.begins.count i ≤ 1 ∧
    (i ∈ m.begins → i ∈ m.regs ∧ i ∉ L ∧ i ∉ Z ∧ (m.running = none → i ∉ m.currentInsts)) := by
  obtain ⟨tr, o, hsh, hx⟩ := yinv hcfg h
  obtain ⟨h1, h2, h3, h4⟩ := hx.safe i
  have hb := hsh.begins.count_eq i
  have he := hsh.ends.count_eq i
  rw [List.count_append] at hb he
  refine ⟨h1, by omega, by omega, fun hm => ?_⟩
  obtain ⟨g1, -, g3, g4⟩ := h4 (hsh.begins.mem_iff.mpr (by simp [hm]))
  refine ⟨hsh.regs ▸ g1, g3, fun hz => ?_, g4⟩
  have := List.count_pos_iff.mpr hm
  have := List.count_pos_iff.mpr hz
  omega

/-- **C97.** A plugin of the current manager is referenced, and has not been freed, when no call is in progress. -/
theorem C97_current {cfg : Config} (hcfg : cfg.OK) {m : Machine} {L Z : List Nat} (h : YReachable cfg m L Z) (hr : m.running = none) {i : Nat}
    (hi : i ∈ m.currentInsts) : 0 < m.refs i ∧ i ∉ m.begins ∧ i ∉ Z ∧ i ∈ m.regs := by
  obtain ⟨tr, o, hsh, hx⟩ := yinv hcfg h
  have hh : i ∈ (m.shade tr o).holds := by
    unfold Machine.holds Machine.curHeld
    rw [hx.inv.idle hr]
    simp only [List.mem_append]
    exact .inr (.inl hi)
  have hno : i ∉ (m.shade tr o).begins := fun hm => ((hx.safe i).2.2.2 hm).2.1 hh
  rw [hsh.begins.mem_iff, List.mem_append] at hno
  refine ⟨?_, fun hm => hno (.inl hm), fun hm => hno (.inr hm), hsh.regs ▸ hx.inv.core.held i hh⟩
  have h1 := hx.inv.core.refs_eq i
  have h2 := List.count_pos_iff.mpr hh
  change m.refs i = _ at h1
  omega

theorem yreach_sound {cfg : Config} (hcfg : cfg.OK) {m : Machine} {L Z : List Nat} (h : YReachable cfg m L Z) : ∀ om, m.current = some om → SoundManager m.next om := by
  obtain ⟨tr, o, -, hx⟩ := yinv hcfg h
  exact fun om ho => (hx.inv.cur om ho).1

/-- **C97.** A call is refused whatever the logger is, and otherwise it can begin when no other call is in progress. -/
theorem C97_call_begins {cfg : Config} (m : Machine) (k : Kind) (env : Env) (lg : Logger) :
    (refused cfg k = true → m.ystep cfg (.callLog k env lg) = m.ystep cfg (.go (.go (.call k env)))) ∧
    ((∃ m', m.ystep cfg (.callLog k env lg) = some m') ↔ refused cfg k = true ∨ m.running = none) := by
  change (_ → m.callLog cfg k env lg = m.step cfg (.call k env)) ∧ ((∃ m', m.callLog cfg k env lg = some m') ↔ _)
  unfold Machine.callLog Machine.step
  constructor
  · intro hr; simp [hr]
  · cases hr : refused cfg k with
    | true => simp
    | false => cases hm : m.running <;> simp

/-- **C97.** A call with a logger that panics at none of its lines is the call with no logger at all (but for `builts`, which is ghost), in every state that the program can reach, also after the logger has panicked before. -/
theorem C97_call_quiet {cfg : Config} (hcfg : cfg.OK) {m : Machine} {L Z : List Nat} (h : YReachable cfg m L Z) (k : Kind) (env : Env) {lg : Logger}
    (hq : ∀ i, i < (planL quiet cfg env k m.current m.next).lines.length → lg i = false) :
    ∃ b : Machine → List Manager, m.ystep cfg (.callLog k env lg) = (m.ystep cfg (.go (.go (.call k env)))).map fun m' => { m' with builts := b m' } := by
  have hp : (planL lg cfg env k m.current m.next).plan = plan cfg env k m.current m.next := by
    rcases (planL_rel lg cfg env k m.current m.next).2 with ⟨h1, h2, _⟩ | hc
    · exact plan_ext h1
    · obtain ⟨n, pos, l, ⟨h1, _⟩, h2, _⟩ := cut_plan hcfg lg k (yreach_sound hcfg h) hc
      rw [hq n (List.getElem?_eq_some_iff.mp h2).1] at h1
      cases h1
  change ∃ b : Machine → List Manager, m.callLog cfg k env lg = (m.step cfg (.call k env)).map fun m' => { m' with builts := b m' }
  unfold Machine.callLog
  by_cases hr : refused cfg k = true
  · have e : m.step cfg (.call k env) = some (m.log .refused) := by unfold Machine.step; exact if_pos hr
    exact ⟨fun m' => m'.builts, by rw [e, if_pos hr]; rfl⟩
  · rw [if_neg hr]
    cases hm : m.running with
    | some r =>
      have e : m.step cfg (.call k env) = none := by unfold Machine.step; refine (if_neg hr).trans ?_; rw [hm]
      exact ⟨fun m' => m'.builts, by rw [e]; rfl⟩
    | none =>
      have e : m.step cfg (.call k env) = some (m.start k (plan cfg env k m.current m.next)) := by unfold Machine.step; refine (if_neg hr).trans ?_; rw [hm]; rfl
      rw [hp, e]
      exact ⟨fun _ => ((plan cfg env k m.current m.next).numbered (plan cfg env k m.current m.next).next).built :: m.builts, rfl⟩

/-- **C97.** A call whose logger panics at one of its lines, in every such state: it does what the call with no logger does before that line, then it releases everything that it has taken, once each, and returns the error of that line. -/
theorem C97_call_cut {cfg : Config} (hcfg : cfg.OK) {m : Machine} {L Z : List Nat} (h : YReachable cfg m L Z) (k : Kind) (env : Env) {lg : Logger} {n pos : Nat} {l : Line}
    (hk : refused cfg k = false) (hrun : m.running = none) (hp : PanicsFirst lg n) (hl : (planL quiet cfg env k m.current m.next).lines[n]? = some (pos, l)) :
    ∃ m' r rel, m.ystep cfg (.callLog k env lg) = some m' ∧ m'.running = some r ∧ r.res = .err l.err ∧
      r.todo = (plan cfg env k m.current m.next).acts.take pos ++ rel.map Act.release ∧ (acquired ((plan cfg env k m.current m.next).acts.take pos)).Perm rel ∧ rel.Nodup ∧
      m'.current = m.current ∧ m'.refs = m.refs ∧ m'.frees = m.frees ∧ m'.counter = m.counter ∧ m'.begins = m.begins := by
  rcases (planL_rel lg cfg env k m.current m.next).2 with ⟨_, _, h1⟩ | hc
  · have := h1 n (List.getElem?_eq_some_iff.mp hl).1
    rw [hp.1] at this
    cases this
  · obtain ⟨n', pos', l', h1, h2, h3, h4⟩ := cut_plan hcfg lg k (yreach_sound hcfg h) hc
    have e : n' = n := by
      rcases Nat.lt_trichotomy n n' with h | h | h
      · have := h1.2 n h; rw [hp.1] at this; cases this
      · exact h.symm
      · have := hp.2 n' h; rw [h1.1] at this; cases this
    subst e
    rw [hl] at h2
    injection h2 with h2
    injection h2 with h2 h5
    subst h2 h5
    obtain ⟨rel, ha, hb, hn⟩ := h4.acts
    change ∃ m' r rel, m.callLog cfg k env lg = some m' ∧ _
    unfold Machine.callLog
    rw [hk, hrun]
    refine ⟨_, _, rel, rfl, rfl, h4.res, ha, hb, hn, rfl, rfl, rfl, rfl, ?_⟩
    change (m.log (.called k)).begins = _
    rw [begins_log]; simp

theorem YLater.reach {cfg : Config} {m m' : Machine} {L Z : List Nat} (h : YReachable cfg m L Z) (hl : YLater cfg m m') :
    ∃ L' Z', YReachable cfg m' (L' ++ L) (Z' ++ Z) := by
  induction hl with
  | refl => exact ⟨[], [], h⟩
  | step l _ hs ih =>
    obtain ⟨L', Z', hr⟩ := ih
    exact ⟨_ ++ L', _ ++ Z', by simpa only [List.append_assoc] using YReachable.step l hr hs⟩

/-- **C97.** When the logger panics at the announcement of the `OnFree` of a plugin, that `OnFree` is never called, before or afterwards; nothing refers to the plugin any more, it is never announced again, and it is never in the current manager. -/
theorem C97_muted {cfg : Config} (hcfg : cfg.OK) {m m' m'' : Machine} {L Z : List Nat} (h : YReachable cfg m L Z) {l : YLabel} (hs : m.ystep cfg l = some m')
    {i : Nat} (hi : i ∈ m.yMutes l) (hl : YLater cfg m' m'') :
    i ∉ m''.begins ∧ m''.refs i = 0 ∧ i ∉ m''.zs ∧ (m''.running = none → i ∉ m''.currentInsts) := by
  obtain ⟨L', Z', hr⟩ := hl.reach (.step l h hs)
  have hi' : i ∈ Z' ++ (m.yMutes l ++ Z) := by simp [hi]
  obtain ⟨tr, o, hsh, hx⟩ := yinv hcfg hr
  obtain ⟨-, -, h3, h4⟩ := hx.safe i
  obtain ⟨-, g2, -, g4⟩ := h4 (hsh.begins.mem_iff.mpr (by simp [hi']))
  have hb := hsh.begins.count_eq i
  rw [List.count_append] at hb
  have hz := List.count_pos_iff.mpr hi'
  refine ⟨fun hm => ?_, ?_, fun hm => ?_, g4⟩
  · have := List.count_pos_iff.mpr hm
    omega
  · have := hx.inv.core.refs_eq i
    rw [List.count_eq_zero_of_not_mem g2] at this
    exact this
  · have h5 : o i = false := hx.inv.once_zero hm
    rw [hsh.once i] at h5
    simp [hi] at h5

/-- **C97.** What is lost is never freed, whatever happens afterwards. -/
theorem C97_never_freed {cfg : Config} (hcfg : cfg.OK) {m m' m'' : Machine} {L Z : List Nat} (h : YReachable cfg m L Z) {l : YLabel}
    (hs : m.ystep cfg l = some m') {i : Nat} (hi : i ∈ m.yLoses l) (hl : YLater cfg m' m'') : i ∉ m''.begins ∧ 0 < m''.refs i := by
  obtain ⟨L', Z', hr⟩ := hl.reach (.step l h hs)
  have hi' : i ∈ L' ++ (m.yLoses l ++ L) := by simp [hi]
  refine ⟨fun hb => ((C97_safe hcfg hr i).2.2.2 hb).2.1 hi', ?_⟩
  obtain ⟨tr, o, hsh, hx⟩ := yinv hcfg hr
  have h0 := hx.inv.core.refs_eq i
  have h1 := hx.lost i
  have h2 := List.count_pos_iff.mpr hi'
  have : 0 < (m''.shade tr o).holds.count i := by
    unfold Machine.holds
    simp only [List.count_append]
    omega
  change m''.refs i = _ at h0
  omega

theorem XInv.rest {cfg : Config} (hst : cfg.static = none) {m : Machine} {L : List Nat} (hx : XInv cfg m L) (hq : m.Quiet) :
    m.holds = m.currentInsts ++ L ∧ m.zs = [] ∧ m.ins = [] := by
  obtain ⟨hr, hf⟩ := hq
  have h1 : m.frees.flatMap (·.todo) = [] := List.flatMap_eq_nil_iff.mpr (fun t ht => (hf t ht).1)
  refine ⟨?_, ?_, ?_⟩
  · unfold Machine.holds Machine.curHeld
    rw [h1, hx.inv.idle hr, hr, hx.inv.dyn (by rw [hst]; rfl)]
    simp [runHeld]
  · unfold Machine.zs
    rw [hr]
    simp [runZs]
    intro t ht; rw [(hf t ht).2]; rfl
  · unfold Machine.ins
    rw [hr]
    simp [runIns]
    intro t ht; rw [(hf t ht).2]; rfl

/-- **C97.** Everything else is freed: when the program is at rest, `OnFree` has been called once, and has returned, of each registered instance that is not in the current manager, not lost, and not one at whose announcement the logger has panicked. -/
theorem C97_others_freed {cfg : Config} (hcfg : cfg.OK) (hst : cfg.static = none) {m : Machine} {L Z : List Nat} (h : YReachable cfg m L Z) (hq : m.Quiet)
    {i : Nat} (hi : i ∈ m.regs) (hc : i ∉ m.currentInsts) (hL : i ∉ L) (hZ : i ∉ Z) : m.begins.count i = 1 ∧ m.ends.count i = 1 := by
  obtain ⟨tr, o, hsh, hx⟩ := yinv hcfg h
  obtain ⟨hh, hz, hin⟩ := hx.rest hst (show (m.shade tr o).Quiet from hq)
  have hb := hx.inv.core.begins_eq i
  have he := hx.inv.core.ends_eq i
  rw [hin] at he
  have hb' := hsh.begins.count_eq i
  have he' := hsh.ends.count_eq i
  rw [List.count_append, List.count_eq_zero_of_not_mem hZ] at hb' he'
  rcases hx.inv.core.done i (by rw [hsh.regs]; exact hi) (by rw [hh]; simp only [List.mem_append]; rintro (g | g); exacts [hc g, hL g]) with ho | ho
  · rw [ho] at hb
    simp at hb he
    omega
  · rw [hz] at ho; cases ho

/-- **C97.** The reference counts when the program is at rest: one for the current manager, and what has been lost. -/
theorem C97_counts {cfg : Config} (hcfg : cfg.OK) (hst : cfg.static = none) {m : Machine} {L Z : List Nat} (h : YReachable cfg m L Z) (hq : m.Quiet) (i : Nat) :
    m.refs i = ((m.currentInsts.count i + L.count i : Nat) : Int) := by
  obtain ⟨tr, o, hsh, hx⟩ := yinv hcfg h
  obtain ⟨hh, -, -⟩ := hx.rest hst (show (m.shade tr o).Quiet from hq)
  have h0 := hx.inv.core.refs_eq i
  rw [hh, List.count_append] at h0
  exact h0

/-- **C97.** A call whose result is not nil, in any state of such a program, has not published, scheduled or counted anything. -/
theorem C97_failed {cfg : Config} (hcfg : cfg.OK) {m : Machine} {L Z : List Nat} (h : YReachable cfg m L Z) {r : Running} (hr : m.running = some r)
    (hf : ∀ d, r.res ≠ .ok d) : ∀ b ∈ lastCallActs m.trace ++ r.todo, (∀ pm, b ≠ .publish pm) ∧ (∀ pm, b ≠ .spawnFree pm) ∧ b ≠ .count := by
  obtain ⟨tr, o, hsh, hx⟩ := yinv hcfg h
  obtain ⟨old, n0, p, hshape, hp, hres⟩ := (hx.call r hr).plan
  change lastCallActs tr ++ _ = _ at hp
  rw [hsh.acts] at hp
  rw [hp]
  cases hshape with
  | failed pre rel acts res log stage acq nodup built origin =>
    rw [acts]
    intro b hb
    rcases List.mem_append.mp hb with g | g
    · have := stage b g
      cases b <;> first | (simp [Act.stage] at this; done) | simp
    · obtain ⟨i, -, rfl⟩ := List.mem_map.mp g
      simp
  | ok pre acts d res log stage acq good origin => exact absurd (hres.trans res) (hf d)
  | noop acts d res built => exact absurd (hres.trans res) (hf d)

/-- **C97.** A panic of the logger at the report of another panic ends the call without a result: it has published and counted nothing, the current manager, the counter, the reference counts and the delayed frees are what they were, and any call can begin. -/
theorem C97_escape {cfg : Config} (hcfg : cfg.OK) {m m' : Machine} {L Z : List Nat} (h : YReachable cfg m L Z) (hs : m.ystep cfg .escape = some m') :
    (∀ b ∈ lastCallActs m'.trace, (∀ pm, b ≠ .publish pm) ∧ (∀ pm, b ≠ .spawnFree pm) ∧ b ≠ .count) ∧
    (∀ t k r, (t, Ev.returned k r) ∈ m'.trace → (t, Ev.returned k r) ∈ m.trace) ∧
    m'.current = m.current ∧ m'.counter = m.counter ∧ m'.refs = m.refs ∧ m'.frees = m.frees ∧ m'.begins = m.begins ∧
    (∀ k env, ∃ m'', m'.ystep cfg (.go (.go (.call k env))) = some m'') ∧ ∀ k env lg, ∃ m'', m'.ystep cfg (.callLog k env lg) = some m'' := by
  obtain ⟨tr, o, hsh, hx⟩ := yinv hcfg h
  have hz : ∀ i ∈ m.zs, o i = false := fun i hi => hx.inv.once_zero hi
  have key : (∀ b ∈ lastCallActs m'.trace, (∀ pm, b ≠ .publish pm) ∧ (∀ pm, b ≠ .spawnFree pm) ∧ b ≠ .count) ∧
      (∀ t k r, (t, Ev.returned k r) ∈ m'.trace → (t, Ev.returned k r) ∈ m.trace) ∧
      m'.current = m.current ∧ m'.counter = m.counter ∧ m'.refs = m.refs ∧ m'.frees = m.frees ∧ m'.begins = m.begins ∧ m'.running = none := by
    cases ystep_view hs with
    | escapeZero r i run phase =>
      have h1 := hx.step hcfg (.go _ _ (.runBegin (m := m.shade tr o) r i run phase (hz i (mem_zs_run run phase))))
      have h2 := h1.unpublished (.cleanup { r with phase := .inside i } i rfl rfl)
      refine ⟨?_, fun t k r' hm => hm, rfl, rfl, rfl, rfl, rfl, rfl⟩
      intro b hb
      refine h2 b ?_
      change b ∈ lastCallActs (tr ++ [(m.now, Ev.freeBegin i)])
      rw [lastCallActs_log, hsh.acts]
      exact hb
    | escapeInside r i run phase =>
      have h2 := hx.unpublished (.cleanup (m := m.shade tr o) r i run phase)
      refine ⟨?_, ?_, rfl, rfl, rfl, rfl, ?_, rfl⟩
      · intro b hb
        refine h2 b ?_
        change b ∈ lastCallActs (m.trace ++ [(m.now, Ev.freeEnd i)]) at hb
        rw [lastCallActs_log] at hb
        change b ∈ lastCallActs tr
        rw [hsh.acts]
        exact hb
      · intro t k r' hm
        change _ ∈ m.trace ++ [_] at hm
        simpa using hm
      · change (m.log (.freeEnd i)).begins = _
        rw [begins_log]; simp
  obtain ⟨h0, h1, h2, h3, h4, h5, h6, h7⟩ := key
  refine ⟨h0, h1, h2, h3, h4, h5, h6, fun k env => C38_call_enabled h7 k env, fun k env lg => ?_⟩
  change ∃ m'', m'.callLog cfg k env lg = some m''
  unfold Machine.callLog
  split
  · exact ⟨_, rfl⟩
  · rw [h7]; exact ⟨_, rfl⟩

/-- **C97.** The program can always come to rest, without any further call and without losing anything more. -/
theorem C97_comes_to_rest {cfg : Config} {m : Machine} {L Z : List Nat} (h : YReachable cfg m L Z) :
    ∃ m', YLater cfg m m' ∧ YReachable cfg m' L Z ∧ m'.Quiet := by
  obtain ⟨ls, m', hs, hq, -⟩ := drain (cfg := cfg) m.weight m rfl
  have go : ∀ (ls : List Label) (m1 : Machine), YLater cfg m m1 → YReachable cfg m1 L Z → m1.steps cfg ls = some m' → YLater cfg m m' ∧ YReachable cfg m' L Z := by
    intro ls
    induction ls with
    | nil => intro m1 h1 h2 h3; cases h3; exact ⟨h1, h2⟩
    | cons l r ih =>
      intro m1 h1 h2 h3
      unfold Machine.steps at h3
      cases hl : m1.step cfg l with
      | none => rw [hl] at h3; cases h3
      | some m2 => rw [hl] at h3; exact ih m2 (.step (.go (.go l)) h1 hl) (.step (.go (.go l)) h2 hl) h3
  obtain ⟨h1, h2⟩ := go ls m .refl h hs
  exact ⟨m', h1, h2, hq⟩

/-- **C97.** The moments at which the logger can end a call: a plugin is about to be freed by a failed call, or its `OnFree` has been called (and has panicked). -/
theorem C97_when {cfg : Config} (m : Machine) : (∃ m', m.ystep cfg .escape = some m') ↔ ∃ r i, m.running = some r ∧ (r.phase = .zero i ∨ r.phase = .inside i) := by
  change (∃ m', m.escape = some m') ↔ _
  unfold Machine.escape
  cases hr : m.running with
  | none => simp
  | some r => cases hp : r.phase <;> simp [hp]

end

/-! ### The hypotheses are met by real executions -/

section Examples
open Demo
attribute [local instance] Demo.rt

/-- A sequence of steps, what they lose, and what they mute. -/
def yrun (c : Config) : Machine × List Nat × List Nat → List YLabel → Option (Machine × List Nat × List Nat)
  | s, [] => some s
  | (m, L, Z), l :: r => match m.ystep c l with
    | none => none
    | some m' => yrun c (m', m.yLoses l ++ L, m.yMutes l ++ Z) r

theorem yrun_reachable {c : Config} {ls : List YLabel} {s s' : Machine × List Nat × List Nat} (h : YReachable c s.1 s.2.1 s.2.2) (hr : yrun c s ls = some s') :
    YReachable c s'.1 s'.2.1 s'.2.2 := by
  induction ls generalizing s with
  | nil => simp [yrun] at hr; exact hr ▸ h
  | cons l r ih =>
    obtain ⟨m, L, Z⟩ := s
    unfold yrun at hr
    cases hs : m.ystep c l with
    | none => rw [hs] at hr; cases hr
    | some m1 => rw [hs] at hr; exact ih (s := (m1, m.yLoses l ++ L, m.yMutes l ++ Z)) (.step l h hs) hr

/-- The state after a sequence of steps. -/
def yafter (ls : List YLabel) : Machine × List Nat × List Nat := (yrun cfg (Machine.init, [], []) ls).getD (Machine.init, [], [])

theorem yafter_reachable {ls : List YLabel} (h : (yrun cfg (Machine.init, [], []) ls).isSome = true) : YReachable cfg (yafter ls).1 (yafter ls).2.1 (yafter ls).2.2 := by
  obtain ⟨s, hs⟩ := Option.isSome_iff_exists.mp h
  refine yrun_reachable (s := (Machine.init, [], [])) .init (ls := ls) ?_
  rw [yafter, hs]; rfl

/-- Load `base` and `app`; reload with a changed `app` and a logger that panics when the `OnInit` of `app` is announced, as far as the release of the new `app`. -/
def logSteps1 : List YLabel := (steps1.map fun l => .go (.go l)) ++ YLabel.callLog (.reload none) env2 (panicsAt 2) :: List.replicate 12 (.go (.go .act))

/-- The logger panics at the announcement of `OnFree` of the new `app`; `base` is released, and the call returns. -/
def logSteps2 : List YLabel := logSteps1 ++ [.muteCall, .go (.go .act), .go (.go .ret)]
/-- The logger panics there, and at the report of that panic. -/
def logSteps3 : List YLabel := logSteps1 ++ [.escape]
/-- Then both plugins are reloaded, and the free goroutine of the first manager reaches `app`. -/
def logSteps4 : List YLabel := logSteps3 ++
  (callSteps (.reload none) (env both (fs 12 23 goodBase goodApp)) 22 ++ [Label.tick 15000000000, Label.free 0]).map fun l => .go (.go l)
/-- There the logger panics at the announcement; `base` is released too. -/
def logSteps5 : List YLabel := logSteps4 ++ [.muteFree 0, .go (.go (.free 0))]

theorem log1_reachable : YReachable cfg (yafter logSteps1).1 (yafter logSteps1).2.1 (yafter logSteps1).2.2 := yafter_reachable (by decide +kernel)
theorem log2_reachable : YReachable cfg (yafter logSteps2).1 (yafter logSteps2).2.1 (yafter logSteps2).2.2 := yafter_reachable (by decide +kernel)
theorem log5_reachable : YReachable cfg (yafter logSteps5).1 (yafter logSteps5).2.1 (yafter logSteps5).2.2 := yafter_reachable (by decide +kernel)

/-- The failed reload (4 is the new `app`, 2 is `base`) is about to release 4; the logger can panic there, and that can end the call. -/
example : (yafter logSteps1).2 = ([], []) ∧ (yafter logSteps1).1.running.isSome = true ∧ (yafter logSteps1).1.yMutes .muteCall = [4] ∧
    ((yafter logSteps1).1.ystep cfg .muteCall).isSome = true ∧ ((yafter logSteps1).1.ystep cfg .escape).isSome = true ∧ (yafter logSteps1).1.yLoses .escape = [2] ∧
    (match (yafter logSteps1).1.running with | some r => error? r.res == some (.hookPanic "app".toList) | none => false) = true := by decide +kernel

/-- The hypotheses of `C97_call_cut`, in a state in which the logger has panicked before. -/
example : refused cfg (.reload none) = false ∧ (yafter logSteps3).1.running.isNone = true ∧
    (planL quiet cfg (env both (fs 12 23 goodBase goodApp)) (.reload none) (yafter logSteps3).1.current (yafter logSteps3).1.next).lines[2]?.isSome = true := by decide +kernel

/-- After a panic at the announcement: 4 is muted, nothing is lost, and the counts of the current manager are what they were. -/
example : (yafter logSteps2).2 = ([], [4]) ∧ (yafter logSteps2).1.running.isNone = true ∧ (yafter logSteps2).1.currentInsts = [2, 1] ∧ (yafter logSteps2).1.refs 4 = 0 ∧
    (yafter logSteps2).1.refs 2 = 1 ∧ (yafter logSteps2).1.begins = [] := by decide +kernel

/-- After a panic at the report too: 2 is lost. -/
example : (yafter logSteps3).2 = ([2], [4]) ∧ (yafter logSteps3).1.running.isNone = true ∧ (yafter logSteps3).1.refs 4 = 0 ∧ (yafter logSteps3).1.refs 2 = 2 := by decide +kernel

/-- The end: of the superseded instances, 1 and 4 are muted, and 2 is lost. The program is at rest. -/
example : (yafter logSteps5).2 = ([2], [1, 4]) ∧ (yafter logSteps5).1.regs = [1, 2, 4, 6, 7] ∧ (yafter logSteps5).1.currentInsts = [7, 6] ∧
    (yafter logSteps5).1.begins = [] ∧ (yafter logSteps5).1.refs 2 = 1 ∧ (yafter logSteps5).1.running.isNone = true ∧
    (yafter logSteps5).1.frees.all (fun t => t.todo.isEmpty && t.phase == .idle) = true := by decide +kernel

end Examples

end Hotswap
