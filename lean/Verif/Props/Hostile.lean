import Verif.Proofs.HostileFair
import Verif.Proofs.HostileOrder
import Verif.Proofs.HostileUse
import Verif.Props.Grace
import Verif.Props.NilHist
import Verif.Props.Goexit

/-!
# C91: plugins that misbehave in every way

Panics, `panic(nil)`, `runtime.Goexit` in any function of a plugin, in callbacks and in `OnFree`, in one history, in any order.
-/

namespace Hotswap

section
variable [GoRuntime] {L : List Nat}

theorem WReachable.sound {cfg : Config} (hcfg : cfg.OK) {m : Machine} (h : WReachable cfg m L) : ∀ om, m.current = some om → SoundManager m.next om := by
  obtain ⟨rel, hi⟩ := winv hcfg h
  exact fun om ho => (hi.inv.cur om ho).1

theorem WLater.reach {cfg : Config} {m m' : Machine} (h : WReachable cfg m L) (hl : WLater cfg m m') : ∃ L', WReachable cfg m' (L' ++ L) := by
  induction hl with
  | refl => exact ⟨[], h⟩
  | step l _ hs ih =>
    obtain ⟨L', hr⟩ := ih
    exact ⟨_, by rw [List.append_assoc]; exact .step l hr hs⟩

theorem readyW {cfg : Config} (hcfg : cfg.OK) {m : Machine} (h : WReachable cfg m L) : ReadyOf fourHooks m := by
  induction h with
  | init => exact ReadyOf.init
  | @step m m' L l hr hs ih =>
    have hsnd := hr.sound hcfg
    have hlog : ∀ e, m.hooks ⊆ (m.log e).hooks := by
      intro e x hx; rw [hooks_log]; exact List.mem_append_left _ hx
    cases wstep_view hs with
    | go l m' hn =>
      cases hn with
      | go l m' st nr => exact ReadyOf.step (by decide) hcfg hsnd ih st
      | refused k env hk => exact ReadyOf.step (l := .call k env) (by decide) hcfg hsnd ih (.refused k env hk)
      | call k env hk run => exact ih.callPlan (callReadyNil hcfg hsnd env hk)
      | ret r run todo phase => exact (ReadyOf.step (by decide) hcfg hsnd ih (.ret r run todo phase)).same rfl (fun _ h => h) (fun r' hr' => by cases hr')
    | hook r a rest run phase todo may => exact ih.same rfl (hlog (.act a)) (fun r' hr' => by cases hr')
    | cleanup r i run phase => exact ih.same rfl (hlog (.freeEnd i)) (fun r' hr' => by cases hr')
    | free t x y frees i phase => exact ih.same rfl (hlog (.freeEnd i)) (fun r' hr' => ⟨r', hr', rfl⟩)

/-- The events of a history, each with the state that caused it. -/
theorem whist {cfg : Config} {m : Machine} (h : WReachable cfg m L) :
    ∀ a t e b, m.trace = a ++ (t, e) :: b → ∃ m0 L0, WReachable cfg m0 L0 ∧ m0.trace = a ∧ m0.now = t ∧ Cause cfg m0 e ∧ ∃ L1, L = L1 ++ L0 := by
  induction h with
  | init => intro a t e b h; simp [Machine.init] at h
  | @step m m' L l hr hs ih =>
    intro a t e b he
    have hem : m'.trace = m.trace ∨ ∃ e, m'.trace = m.trace ++ [(m.now, e)] ∧ Cause cfg m e := by
      cases wstep_view hs with
      | go l m' hn =>
        cases hn with
        | go l m' st nr => exact st.emits
        | refused k env hk => exact .inr ⟨_, rfl, .refused k hk⟩
        | call k env hk run => exact .inr ⟨_, rfl, .called k hk run⟩
        | ret r run todo phase => exact .inr ⟨_, rfl, .returned r run phase todo⟩
      | hook r a rest run phase todo may => exact .inr ⟨_, rfl, .act r a rest run phase todo⟩
      | cleanup r i run phase => exact .inr ⟨_, rfl, .done i (mem_ins_run run phase)⟩
      | free t x y frees i phase => exact .inr ⟨_, rfl, .done i (mem_ins_free (by rw [frees]; simp) phase)⟩
    rcases hem with h | ⟨ev, h, hc⟩
    · obtain ⟨m0, L0, h1, h2, h3, h4, L1, rfl⟩ := ih a t e b (h ▸ he)
      exact ⟨m0, L0, h1, h2, h3, h4, m.wLoses l ++ L1, by rw [List.append_assoc]⟩
    · rw [h] at he
      rcases snoc_split he with ⟨b', _, hl⟩ | ⟨_, rfl, hx⟩
      · obtain ⟨m0, L0, h1, h2, h3, h4, L1, rfl⟩ := ih a t e b' hl
        exact ⟨m0, L0, h1, h2, h3, h4, m.wLoses l ++ L1, by rw [List.append_assoc]⟩
      · cases hx
        exact ⟨m, L, hr, rfl, rfl, hc, m.wLoses l, rfl⟩

/-- A call that ends by `runtime.Goexit` has published nothing. -/
theorem WInv.unpublished {cfg : Config} {m : Machine} {rel : List Nat} (h : WInv cfg m L rel) {m' : Machine} (hs : WStep cfg m .exitCall m') :
    ∀ b ∈ lastCallActs m.trace, (∀ pm, b ≠ .publish pm) ∧ (∀ pm, b ≠ .spawnFree pm) ∧ b ≠ .count := by
  have hx : XInv cfg (m.owing rel) L := ⟨h.inv, h.lost, h.call⟩
  generalize hl : WLabel.exitCall = wl at hs
  cases hs with
  | go l m' hn => cases hl
  | free t x y frees i phase => cases hl
  | hook r a rest run phase todo may =>
    refine hx.unpublished (m' := ((m.owing rel).log (.act a)).drop { r with todo := r.todo ++ rel.map Act.release }) (.hook _ a (rest ++ rel.map Act.release) ?_ phase ?_ may)
    · rw [owing_some run]
    · rw [todo]; rfl
  | cleanup r i run phase =>
    refine hx.unpublished (m' := ((m.owing rel).onFreeDone i).drop { r with todo := r.todo ++ rel.map Act.release }) (.cleanup _ i ?_ phase)
    rw [owing_some run]

/-! ### C91 -/

/-- **C91.** The functions of the plugins are called in the documented order, each at most once. -/
theorem C91_lifecycle {cfg : Config} (hcfg : cfg.OK) {m : Machine} (h : WReachable cfg m L) (i : Nat) : (m.hooksOf i).Sublist lifecycle := by
  obtain ⟨rel, hi⟩ := winv hcfg h
  exact hi.hook.hooksOf_sublist i

/-- **C91.** On every plugin of the current manager, `Reloadable`, `Export`, `Import` and `OnLoad` have been called. -/
theorem C91_set_up {cfg : Config} (hcfg : cfg.OK) {m : Machine} (h : WReachable cfg m L) {pm : Manager} (hc : m.current = some pm) {q : Plugin} (hq : q ∈ pm.plugins) :
    ∀ g ∈ [Hook.reloadable, .export, .import, .onLoad], g ∈ m.hooksOf q.inst := by
  intro g hg
  have := (readyW hcfg h).cur pm hc q hq g hg
  unfold Machine.hooksOf
  exact List.mem_map.mpr ⟨(q.inst, g), List.mem_filter.mpr ⟨this, by simp⟩, rfl⟩

/-- **C91.** Nothing is freed twice, nothing is freed that is not registered, that is in the current manager, or whose references are lost; counts are never negative. -/
theorem C91_safe {cfg : Config} (hcfg : cfg.OK) {m : Machine} (h : WReachable cfg m L) (i : Nat) :
    0 ≤ m.refs i ∧ m.ends.count i ≤ m.begins.count i ∧ m.begins.count i ≤ 1 ∧ (i ∈ m.begins → i ∈ m.regs ∧ i ∉ L ∧ (m.running = none → i ∉ m.currentInsts)) := by
  obtain ⟨rel, hx⟩ := winv hcfg h
  exact hx.safe i

/-- **C91.** What is lost, and when. Only three kinds of steps lose anything: the return of a call that panics with the nil dereference, the end of a call by `runtime.Goexit`, the end of a free goroutine by `runtime.Goexit` in `OnFree`. Such
a call has published nothing and counted nothing. The current manager, the counter and the reference counts are not touched, and a call can begin, unless another one is running. -/
theorem C91_what_is_lost {cfg : Config} (hcfg : cfg.OK) {m m' : Machine} (h : WReachable cfg m L) {l : WLabel} (hs : m.wstep cfg l = some m') (hne : m.wLoses l ≠ []) :
    m'.current = m.current ∧ m'.counter = m.counter ∧ m'.refs = m.refs ∧
    (((∃ k, m'.trace = m.trace ++ [(m.now, .returned k (.panic .nilDeref))]) ∧ m'.running = none ∧
        (∀ b ∈ lastCallActs m.trace, (∀ pm, b ≠ .publish pm) ∧ (∀ pm, b ≠ .spawnFree pm) ∧ b ≠ .count) ∧
        ∀ i, i ∈ m.wLoses l ↔ Act.register i ∈ lastCallActs m.trace ∨ Act.inc i ∈ lastCallActs m.trace) ∨
     (l = .exitCall ∧ m.running ≠ none ∧ m'.running = none ∧ (∀ t k r, (t, Ev.returned k r) ∈ m'.trace → (t, Ev.returned k r) ∈ m.trace) ∧
        (∀ b ∈ lastCallActs m.trace, (∀ pm, b ≠ .publish pm) ∧ (∀ pm, b ≠ .spawnFree pm) ∧ b ≠ .count) ∧
        ∀ i, i ∈ m.wLoses l → Act.register i ∈ lastCallActs m.trace ∨ Act.inc i ∈ lastCallActs m.trace) ∨
     (∃ n t i, l = .exitFree n ∧ m.frees[n]? = some t ∧ t.phase = .inside i ∧ m.wLoses l = t.todo ∧ m'.running = m.running)) := by
  obtain ⟨rel, hx⟩ := winv hcfg h
  have hv := wstep_view hs
  have howed : ∀ i, i ∈ owed (lastCallActs m.trace) → Act.register i ∈ lastCallActs m.trace ∨ Act.inc i ∈ lastCallActs m.trace := by
    have gen : ∀ (acts : List Act) (z : List Nat) (i : Nat), i ∈ acts.foldl (fun l a => match a with
        | .register i => i :: l
        | .inc i => i :: l
        | .release i => l.erase i
        | .publish _ => []
        | _ => l) z → i ∈ z ∨ Act.register i ∈ acts ∨ Act.inc i ∈ acts := by
      intro acts
      induction acts with
      | nil => intro z i hi; exact .inl hi
      | cons a r ih =>
        intro z i hi
        rw [List.foldl_cons] at hi
        rcases ih _ i hi with h | h | h
        · cases a with
          | register j =>
            rcases List.mem_cons.mp h with h | h
            · exact .inr (.inl (by simp [h]))
            · exact .inl h
          | inc j =>
            rcases List.mem_cons.mp h with h | h
            · exact .inr (.inr (by simp [h]))
            · exact .inl h
          | release j => exact .inl (List.erase_subset h)
          | publish pm => cases h
          | _ => exact .inl h
        · exact .inr (.inl (by simp [h]))
        · exact .inr (.inr (by simp [h]))
    intro i hi
    rcases gen _ [] i hi with h | h
    · cases h
    · exact h
  cases hv with
  | go l m' hn =>
    obtain ⟨h1, h2, h3, h4, h5, h6, _⟩ := hx.toNInv.what_is_lost (l := l) hs hne
    refine ⟨h4, h5, h6, .inl ⟨h1, ?_, fun b hb => ⟨(h2 b hb).1, (h2 b hb).2.1, (h2 b hb).2.2.2⟩, h3⟩⟩
    cases hn with
    | go l m' st nr => exact absurd (by cases l <;> first | rfl | exact absurd rfl nr) hne
    | refused k env hr => exact absurd rfl hne
    | call k env hr run => exact absurd rfl hne
    | ret r run todo phase => rfl
  | hook r a rest run phase todo may =>
    refine ⟨rfl, rfl, rfl, .inr (.inl ⟨rfl, by rw [run]; simp, rfl, ?_, hx.unpublished (wstep_view hs), howed⟩)⟩
    intro t k r' hm
    change _ ∈ m.trace ++ [_] at hm
    simpa using hm
  | cleanup r i run phase =>
    refine ⟨rfl, rfl, rfl, .inr (.inl ⟨rfl, by rw [run]; simp, rfl, ?_, hx.unpublished (wstep_view hs), howed⟩)⟩
    intro t k r' hm
    change _ ∈ m.trace ++ [_] at hm
    simpa using hm
  | free t x y frees i phase =>
    refine ⟨rfl, rfl, rfl, .inr (.inr ⟨x.length, t, i, rfl, by rw [frees, getElem?_mid], phase, ?_, rfl⟩)⟩
    simp [Machine.wLoses, Machine.loses, frees]

/-- **C91.** What is lost is never freed, whatever happens afterwards. -/
theorem C91_never_freed {cfg : Config} (hcfg : cfg.OK) {m m' m'' : Machine} (h : WReachable cfg m L) {l : WLabel} (hs : m.wstep cfg l = some m') {i : Nat} (hi : i ∈ m.wLoses l)
    (hl : WLater cfg m' m'') : i ∉ m''.begins ∧ 0 < m''.refs i := by
  obtain ⟨L', hr⟩ := hl.reach (.step l h hs)
  have hi' : i ∈ L' ++ (m.wLoses l ++ L) := by simp [hi]
  refine ⟨fun hb => ((C91_safe hcfg hr i).2.2.2 hb).2.1 hi', ?_⟩
  obtain ⟨rel, hx⟩ := winv hcfg hr
  exact hx.kept hi'

/-- **C91.** Everything else is freed: when the program is at rest, each registered instance that is not in the current manager and not lost has been freed, once. -/
theorem C91_others_freed {cfg : Config} (hcfg : cfg.OK) (hst : cfg.static = none) {m : Machine} (h : WReachable cfg m L) (hq : m.Quiet) {i : Nat} (hi : i ∈ m.regs) (hc : i ∉ m.currentInsts)
    (hL : i ∉ L) : m.begins.count i = 1 ∧ m.ends.count i = 1 := by
  obtain ⟨rel, hx⟩ := winv hcfg h
  exact hx.others_freed hst hq hi hc hL

/-- **C91.** The free delay is kept. -/
theorem C91_delay {cfg : Config} (hcfg : cfg.OK) {m : Machine} (h : WReachable cfg m L) {a b : History} {t T i : Nat} {pm : Manager}
    (he : m.trace = a ++ (t, .freeBegin i) :: b) (hp : (T, Ev.act (.publish pm)) ∈ a) (hi : i ∈ pm.insts) :
    ∃ T0, (T0, Ev.act (.spawnFree pm)) ∈ a ∧ T0 + max 15000000000 cfg.freeDelay ≤ t := by
  obtain ⟨m0, L0, hr, rfl, rfl, hc, _⟩ := whist h a t _ b he
  obtain ⟨rel, hx⟩ := winv hcfg hr
  exact hx.delayed hc hp hi

/-- **C91.** Dependents first: `OnFree` begins on a dependency only when the `OnFree` of each dependent that was published with it has returned, or the dependent is lost. -/
theorem C91_dependents_first {cfg : Config} (hcfg : cfg.OK) {m : Machine} (h : WReachable cfg m L) {a b : History} {t T : Nat} {pm : Manager} {d q : Nat}
    (he : m.trace = a ++ (t, .freeBegin q) :: b) (hp : (T, Ev.act (.publish pm)) ∈ a) (hb : BoundIn pm d q) : (∃ t', (t', Ev.freeEnd d) ∈ a) ∨ d ∈ L := by
  obtain ⟨m0, L0, hr, rfl, rfl, hc, L1, rfl⟩ := whist h a t _ b he
  cases hc with
  | begin i hz =>
    rcases wdependents hcfg hr hp hb hz with hd | hd
    · left
      unfold Machine.ends Machine.events at hd
      obtain ⟨e, he, hh⟩ := List.mem_filterMap.mp hd
      obtain ⟨x, hx, rfl⟩ := List.mem_map.mp he
      refine ⟨x.1, ?_⟩
      obtain ⟨x1, x2⟩ := x
      cases x2 <;> simp at hh
      subst hh; exact hx
    · exact .inr (List.mem_append_right _ hd)

/-! ### Coming to rest, and fair executions -/

/-- A program that is not at rest can go on without a call, and if no call is running, without losing anything. -/
theorem rest_wstep {cfg : Config} {m : Machine} (hq : ¬ m.Quiet) :
    ∃ l m', m.wstep cfg (.go (.go l)) = some m' ∧ l.isCall = false ∧ m'.toRest < m.toRest ∧ (m.running = none → m'.running = none ∧ m.wLoses (.go (.go l)) = []) := by
  obtain ⟨l, m', hs, hc, hw, _⟩ := rest_step (cfg := cfg) hq
  by_cases hl : l = .ret
  · subst hl
    cases hs with
    | ret r run todo phase =>
      refine ⟨.ret, { m.log (.returned r.kind r.res) with running := none, abandoned := r.held ++ m.abandoned }, ?_, rfl, hw, fun hr => by rw [run] at hr; cases hr⟩
      have he := (Step.ret (cfg := cfg) r run todo phase).enabled
      change m.nstep cfg (.go .ret) = _
      simp only [Machine.nstep, run, he]
      rfl
  · refine ⟨l, m', ?_, hc, hw, fun hr => ⟨(stays_idle hs.enabled hc hr).1, ?_⟩⟩
    · have := hs.enabled
      cases l with
      | ret => exact absurd rfl hl
      | _ => exact this
    · cases l <;> first | rfl | exact absurd rfl hl

/-- **C91.** `Current()` returns the manager published last. -/
theorem C91_current {cfg : Config} {m : Machine} (h : WReachable cfg m L) {a b : History} {t : Nat} {x : Option Nat} (he : m.trace = a ++ (t, .observed x) :: b) : x = (lastPublished a).map (·.mid) := by
  obtain ⟨m0, L0, hr, rfl, rfl, hc, _⟩ := whist h a t _ b he
  cases hc with
  | observed => rw [wcurrent_eq hr]

/-- **C91.** A manager obtained from `Current()` while no call is running can be used for max(15 s, `WithFreeDelay`): `OnFree` begins on none of its plugins in that time, whatever happens. -/
theorem C91_usable {cfg : Config} (hcfg : cfg.OK) {m m' : Machine} (h : WReachable cfg m L) (hr : m.running = none) {pm : Manager} (hc : m.current = some pm) (hl : WLater cfg m m')
    (hnow : m'.now < m.now + max 15000000000 cfg.freeDelay) {i : Nat} (hi : i ∈ pm.insts) : i ∉ m'.begins := by
  rw [← delay_eq] at hnow
  have key : ∀ m', WLater cfg m m' → m'.now < m.now + cfg.delay → Guarded cfg m.now i m' ∧ m.now ≤ m'.now := by
    intro m' hl
    induction hl with
    | refl =>
      intro _
      refine ⟨.inl ?_, Nat.le_refl _⟩
      obtain ⟨rel, hx⟩ := winv hcfg h
      have hp : m.pending = none := hx.inv.idle (by rw [owing_none hr]; exact hr)
      unfold Machine.curHeld
      rw [hp]
      exact (Machine.mem_currentInsts hc).mpr hi
    | @step m1 m2 l hl1 hs ih =>
      intro hn
      have hv := wstep_view hs
      have hle := hv.now_le
      obtain ⟨g, hT⟩ := ih (by omega)
      obtain ⟨L', hr1⟩ := hl1.reach h
      obtain ⟨rel, hx⟩ := winv hcfg hr1
      exact ⟨hv.guarded hx g hT (by omega), by omega⟩
  obtain ⟨L', hr'⟩ := hl.reach h
  obtain ⟨rel, hx⟩ := winv hcfg hr'
  exact (key m' hl hnow).1.not_freed hx.toNInv

/-- **C91.** While no call is running, `ReloadCounter()` is the number of reloads that have returned nil. -/
theorem C91_counter {cfg : Config} (hcfg : cfg.OK) {m : Machine} (h : WReachable cfg m L) (hr : m.running = none) : m.counter = reloadsOk m.trace := by
  rw [wcounter_eq hcfg h, hr]; rfl

/-- **C91.** `ReloadCounter()` never decreases. -/
theorem C91_counter_monotone {cfg : Config} {m m' : Machine} (hl : WLater cfg m m') : m.counter ≤ m'.counter := by
  induction hl with
  | refl => exact Nat.le_refl _
  | step l _ hs ih =>
    refine Nat.le_trans ih ?_
    cases wstep_view hs with
    | go l m' hn =>
      cases hn with
      | go l m' st nr => rcases st.counter with e | ⟨e, _⟩ <;> omega
      | _ => exact Nat.le_refl _
    | _ => exact Nat.le_refl _

/-- **C91.** The program can come to rest from every such state, without any further call; if no call is running, without losing anything more. -/
theorem C91_comes_to_rest {cfg : Config} {m : Machine} (h : WReachable cfg m L) :
    ∃ m' L', WLater cfg m m' ∧ WReachable cfg m' (L' ++ L) ∧ m'.Quiet ∧ (m.running = none → L' = []) := by
  have go : ∀ w m1 L1, m1.toRest = w → WLater cfg m m1 → WReachable cfg m1 (L1 ++ L) →
      ∃ m' L', WLater cfg m m' ∧ WReachable cfg m' (L' ++ L) ∧ m'.Quiet ∧ (m1.running = none → L' = L1) := by
    intro w
    induction w using Nat.strongRecOn with
    | _ w ih =>
      intro m1 L1 hw h1 h2
      by_cases hq : m1.Quiet
      · exact ⟨m1, L1, h1, h2, hq, fun _ => rfl⟩
      · obtain ⟨l, m2, hs, hc, hlt, hn⟩ := rest_wstep (cfg := cfg) hq
        have h2' := WReachable.step _ h2 hs
        rw [← List.append_assoc] at h2'
        obtain ⟨m', L', e1, e2, e3, e4⟩ := ih _ (hw ▸ hlt) m2 _ rfl (.step _ h1 hs) h2'
        refine ⟨m', L', e1, e2, e3, fun hr => ?_⟩
        obtain ⟨e5, e6⟩ := hn hr
        rw [e4 e5, e6]; rfl
  exact go _ m [] rfl .refl h

/-- **C91.** In a fair execution, in which plugins may misbehave again and again, every call ends: the lock is free again and again. -/
theorem C91_lock_free {cfg : Config} {e : WExecution cfg} (hf : e.Fair) (n : Nat) : ∃ k, n ≤ k ∧ (e.at_ k).running = none := WExecution.returns hf n

/-- **C91.** In a fair execution, an instance that at some moment when no call is running is not among the plugins of the current manager is lost at some moment, and then never freed, or is eventually freed exactly once. -/
theorem C91_lost_or_freed {cfg : Config} (hcfg : cfg.OK) (hst : cfg.static = none) {e : WExecution cfg} (hf : e.Fair) {n i : Nat}
    (hr : (e.at_ n).running = none) (hreg : i ∈ (e.at_ n).regs) (hc : i ∉ (e.at_ n).currentInsts) :
    ((∃ k, i ∈ e.lost k) ∧ ∀ k, i ∉ (e.at_ k).begins) ∨ ((∀ k, i ∉ e.lost k) ∧ e.Eventually (fun m => m.begins.count i = 1 ∧ m.ends.count i = 1)) := by
  by_cases hL : ∃ k, i ∈ e.lost k
  · refine .inl ⟨hL, fun k hb => ?_⟩
    obtain ⟨k0, h0⟩ := hL
    have mono : ∀ j, k ≤ j → i ∈ (e.at_ j).begins := by
      refine e.keeps (P := fun m => i ∈ m.begins) ?_ hb
      intro m m' l _ hm hs
      have hlog : ∀ x, i ∈ (m.log x).begins := fun x => by rw [begins_log]; exact List.mem_append_left _ hm
      have hstep : ∀ l m', Step cfg m l m' → i ∈ m'.begins := fun l m' st =>
        List.count_pos_iff.mp (Nat.lt_of_lt_of_le (List.count_pos_iff.mpr hm) (st.begins_mono i))
      cases hs with
      | go l m' hn =>
        cases hn with
        | go l m' st nr => exact hstep _ _ st
        | refused k env hk => exact hlog _
        | call k env hk run => exact hlog (.called k)
        | ret r run todo phase => exact hlog (.returned r.kind r.res)
      | hook r a rest run phase todo may => exact hlog (.act a)
      | cleanup r j run phase => exact hlog (.freeEnd j)
      | free t x y frees j phase => exact hlog (.freeEnd j)
    have h1 := e.lost_mono h0 (max k k0) (by omega)
    exact ((C91_safe hcfg (e.reachable _) i).2.2.2 (mono (max k k0) (by omega))).2.1 h1
  · have hL' : ∀ k, i ∉ e.lost k := fun k hk => hL ⟨k, hk⟩
    exact .inr ⟨hL', WExecution.freed hcfg hst hf hr hreg hc hL'⟩

/-- One step more at the beginning. -/
def WExecution.cons {cfg : Config} {m : Machine} {l : WLabel} (h : WReachable cfg m L) (e : WExecution cfg) (hs : m.wstep cfg l = some (e.at_ 0)) (hl : e.lost 0 = m.wLoses l ++ L) : WExecution cfg where
  at_ n := match n with | 0 => m | n + 1 => e.at_ n
  lost n := match n with | 0 => L | n + 1 => e.lost n
  lab n := match n with | 0 => l | n + 1 => e.lab n
  start := h
  next n := match n with | 0 => ⟨hs, hl⟩ | n + 1 => e.next n

theorem WExecution.cons_fair {cfg : Config} {m : Machine} {l : WLabel} (h : WReachable cfg m L) {e : WExecution cfg} (hs : m.wstep cfg l = some (e.at_ 0)) (hl : e.lost 0 = m.wLoses l ++ L) (hf : e.Fair) :
    (e.cons h hs hl).Fair := by
  have wrap : ∀ x, e.FairTo x → (e.cons h hs hl).FairTo x := by
    intro x hx n hen
    obtain ⟨k, hk, he⟩ := hx n (fun k hk => hen (k + 1) (by omega))
    exact ⟨k + 1, by omega, he⟩
  refine ⟨wrap _ hf.act, wrap _ hf.ret, fun n => wrap _ (hf.free n), fun t => ?_⟩
  obtain ⟨k, hk⟩ := hf.clock t
  exact ⟨k + 1, hk⟩

/-- Time passes. -/
def WExecution.rest {cfg : Config} {m : Machine} (h : WReachable cfg m L) : WExecution cfg where
  at_ n := { m with now := m.now + n }
  lost _ := L
  lab _ := .go (.go (.tick 1))
  start := h
  next n := ⟨rfl, rfl⟩

theorem WExecution.rest_fair {cfg : Config} {m : Machine} (h : WReachable cfg m L) (hq : m.Quiet) : (WExecution.rest h).Fair := by
  have wrap : ∀ l : Label, (l = .act ∨ l = .ret ∨ ∃ n, l = .free n) → (WExecution.rest h).FairTo l := by
    intro l hl n hen
    have h1 := hen n (Nat.le_refl _)
    exfalso
    have hs : Machine.step cfg { m with now := m.now + n } l = none := quiet_stuck (m := { m with now := m.now + n }) hq hl
    have hn : Machine.wstep cfg { m with now := m.now + n } (.go (.go l)) = none := by
      change Machine.nstep cfg _ (.go l) = none
      rcases hl with rfl | rfl | ⟨n, rfl⟩
      · exact hs
      · simp only [Machine.nstep, hs, hq.1]
      · exact hs
    change (Machine.wstep cfg { m with now := m.now + n } (.go (.go l))).isSome = true at h1
    rw [hn] at h1
    cases h1
  exact ⟨wrap _ (.inl rfl), wrap _ (.inr (.inl rfl)), fun n => wrap _ (.inr (.inr ⟨n, rfl⟩)), fun t => ⟨t, Nat.le_add_left ..⟩⟩

/-- **C91.** From every state that can be reached, a fair execution continues. -/
theorem C91_fair_exists {cfg : Config} {m : Machine} (h : WReachable cfg m L) : ∃ e : WExecution cfg, e.Fair ∧ e.at_ 0 = m ∧ e.lost 0 = L := by
  have go : ∀ w m1 L1, m1.toRest = w → WReachable cfg m1 L1 → ∃ e : WExecution cfg, e.Fair ∧ e.at_ 0 = m1 ∧ e.lost 0 = L1 := by
    intro w
    induction w using Nat.strongRecOn with
    | _ w ih =>
      intro m1 L1 hw h1
      by_cases hq : m1.Quiet
      · exact ⟨.rest h1, WExecution.rest_fair h1 hq, rfl, rfl⟩
      · obtain ⟨l, m2, hs, hc, hlt, _⟩ := rest_wstep (cfg := cfg) hq
        obtain ⟨e, hf, e0, l0⟩ := ih _ (hw ▸ hlt) m2 _ rfl (.step _ h1 hs)
        have hs' : m1.wstep cfg (.go (.go l)) = some (e.at_ 0) := by rw [e0]; exact hs
        exact ⟨e.cons h1 hs' l0, WExecution.cons_fair h1 hs' l0 hf, rfl, rfl⟩
  exact go _ m L rfl h

/-! ### The other histories -/

/-- **C91.** The histories with `panic(nil)` only are among these, with the same losses. -/
theorem C91_with_nil {cfg : Config} {m : Machine} (h : NReachable cfg m L) : WReachable cfg m L := by
  induction h with
  | init => exact .init
  | step l _ hs ih => exact .step (.go l) ih hs

/-- **C91.** So are the histories with `runtime.Goexit` only. -/
theorem C91_with_exit {cfg : Config} (hcfg : cfg.OK) {m : Machine} (h : XReachable cfg m L) : WReachable cfg m L := by
  induction h with
  | init => exact .init
  | @step m m' L l hr hs ih =>
    cases l with
    | exitCall => exact .step .exitCall ih hs
    | exitFree n => exact .step (.exitFree n) ih hs
    | go l =>
      by_cases hl : l = .ret
      · subst hl
        have hx := xinv hcfg hr
        cases step_view (show m.step cfg .ret = some m' from hs) with
        | ret r run todo phase =>
          have hheld := hx.inv.ret_held run todo
          have hlose : m.wLoses (.go (.go .ret)) = [] := by
            rw [← hheld]; exact (hx.call r run).held.symm
          have := WReachable.step (m' := { m.log (.returned r.kind r.res) with running := none }) (.go (.go .ret)) ih (by
            change m.nstep cfg (.go .ret) = _
            simp only [Machine.nstep, run, Machine.step, todo, phase, hheld, List.nil_append]
            rfl)
          rw [hlose] at this
          exact this
      · have := WReachable.step (m' := m') (.go (.go l)) ih (by
          cases l with
          | ret => exact absurd rfl hl
          | _ => exact hs)
        have hlose : m.wLoses (.go (.go l)) = [] := by cases l <;> first | rfl | exact absurd rfl hl
        rw [hlose] at this
        exact this

end

/-! ### The hypotheses are met by real executions -/

section Examples
open Demo
attribute [local instance] Demo.rt

/-- A sequence of steps and what they lose. -/
def wrun (c : Config) : Machine × List Nat → List WLabel → Option (Machine × List Nat)
  | s, [] => some s
  | (m, L), l :: r => match m.wstep c l with
    | none => none
    | some m' => wrun c (m', m.wLoses l ++ L) r

theorem wrun_reachable {c : Config} {ls : List WLabel} {s s' : Machine × List Nat} (h : WReachable c s.1 s.2) (hr : wrun c s ls = some s') : WReachable c s'.1 s'.2 := by
  induction ls generalizing s with
  | nil => simp [wrun] at hr; exact hr ▸ h
  | cons l r ih =>
    obtain ⟨m, L⟩ := s
    unfold wrun at hr
    cases hs : m.wstep c l with
    | none => rw [hs] at hr; cases hr
    | some m1 => rw [hs] at hr; exact ih (s := (m1, m.wLoses l ++ L)) (.step l h hs) hr

/-- The state after a sequence of steps. -/
def wafter (ls : List WLabel) : Machine × List Nat := (wrun cfg (Machine.init, []) ls).getD (Machine.init, [])

theorem wafter_reachable {ls : List WLabel} (h : (wrun cfg (Machine.init, []) ls).isSome = true) : WReachable cfg (wafter ls).1 (wafter ls).2 := by
  obtain ⟨s, hs⟩ := Option.isSome_iff_exists.mp h
  refine wrun_reachable (s := (Machine.init, [])) .init (ls := ls) ?_
  rw [wafter, hs]; rfl

/-- Load `base` and `app`; a reload with a changed `app`, whose package initialisation panics with nil; then a reload with another changed `app`, whose `OnInit` calls `runtime.Goexit`. -/
def hostile1 : List WLabel := (nilSteps4 ++ (Label.ret :: Label.call (.reload none) env2 :: List.replicate 11 Label.act).map NLabel.go).map .go ++ [.exitCall]
/-- A reload with both plugins changed; after the delay, the first `OnFree`, as far as its call. -/
def hostile2 : List WLabel := hostile1 ++ ((callSteps (.reload none) (env both (fs 12 23 goodBase goodApp)) 22 ++ Label.tick 15000000000 :: List.replicate 2 (Label.free 0)).map NLabel.go).map .go
/-- It calls `runtime.Goexit`; another reload with both plugins changed, and its delayed free. -/
def hostile3 : List WLabel := hostile2 ++ .exitFree 0 :: ((callSteps (.reload none) (env both (fs 14 25 goodBase goodApp)) 22 ++ Label.tick 15000000000 :: List.replicate 6 (Label.free 1)).map NLabel.go).map .go

theorem hostile1_reachable : WReachable cfg (wafter hostile1).1 (wafter hostile1).2 := wafter_reachable (by decide +kernel)
theorem hostile2_reachable : WReachable cfg (wafter hostile2).1 (wafter hostile2).2 := wafter_reachable (by decide +kernel)
theorem hostile3_reachable : WReachable cfg (wafter hostile3).1 (wafter hostile3).2 := wafter_reachable (by decide +kernel)

/-- The first manager is still current; `base` (instance 2) has been lost twice, the new `app` (instance 6) once. -/
example : (wafter hostile1).2 = [6, 2, 2] ∧ (wafter hostile1).1.currentInsts = [2, 1] ∧ (wafter hostile1).1.refs 2 = 3 ∧ (wafter hostile1).1.begins = [] ∧
    (wafter hostile1).1.running.isNone = true ∧ (wafter hostile1).1.hooksOf 6 = [.reloadable, .export, .import, .onLoad, .onInit] := by decide +kernel

/-- Both are superseded; the free goroutine is in the `OnFree` of the first `app` (instance 1), and would lose `base` for the third time. -/
example : (wafter hostile2).1.currentInsts = [9, 8] ∧ (wafter hostile2).1.begins = [1] ∧ (wafter hostile2).1.ends = [] ∧ ((wafter hostile2).1.wstep cfg (.exitFree 0)).isSome = true ∧
    (wafter hostile2).1.wLoses (.exitFree 0) = [2] := by decide +kernel

/-- At rest: the lost instances 2 and 6 have not been freed; the others that have been superseded have been freed once. -/
example : (wafter hostile3).2 = [2, 6, 2, 2] ∧ (wafter hostile3).1.regs = [1, 2, 6, 8, 9, 11, 12] ∧ (wafter hostile3).1.currentInsts = [12, 11] ∧ (wafter hostile3).1.begins = [1, 8, 9] ∧
    (wafter hostile3).1.ends = [1, 8, 9] ∧ (wafter hostile3).1.running.isNone = true ∧ (wafter hostile3).1.frees.all (fun t => t.todo.isEmpty && t.phase == .idle) = true := by decide +kernel

/-- The hypotheses of `C91_lost_or_freed`: instances 1 and 2 at the second of these states, in the fair executions that exist. -/
example : (∃ e : WExecution cfg, e.Fair ∧ e.at_ 0 = (wafter hostile2).1 ∧ e.lost 0 = (wafter hostile2).2) ∧ (wafter hostile2).1.running.isNone = true ∧
    1 ∈ (wafter hostile2).1.regs ∧ 1 ∉ (wafter hostile2).1.currentInsts ∧ 1 ∉ (wafter hostile2).2 ∧ 2 ∈ (wafter hostile2).1.regs ∧ 2 ∉ (wafter hostile2).1.currentInsts ∧ 2 ∈ (wafter hostile2).2 :=
  ⟨C91_fair_exists hostile2_reachable, by decide +kernel⟩

/-- Load `base` and `app`; a reload with a changed `base`, whose `Reloadable` calls `runtime.Goexit` when `app` has been kept; a reload with both changed, and its delayed free. -/
def hostile4 : List WLabel := ((steps1 ++ Label.call (.reload none) (env both (fs 11 20 goodBase goodApp)) :: List.replicate 2 Label.act).map NLabel.go).map .go ++ .exitCall ::
  ((callSteps (.reload none) (env both (fs 12 23 goodBase goodApp)) 22 ++ Label.tick 15000000000 :: List.replicate 4 (Label.free 0)).map NLabel.go).map .go

theorem hostile4_reachable : WReachable cfg (wafter hostile4).1 (wafter hostile4).2 := wafter_reachable (by decide +kernel)

/-- Is there, before the first `OnFree` of instance `q`, a published manager in which `d` is bound to `q`? -/
def publishedBound (m : Machine) (d q : Nat) : Bool :=
  (m.trace.takeWhile (fun e => match e.2 with | .freeBegin i => i != q | _ => true)).any (fun e => match e.2 with
    | .act (.publish pm) => pm.pluginMap.entries.any (fun e => e.2.inst == d && e.2.bound.any (fun b => b.dep == q))
    | _ => false)

/-- The two cases of `C91_dependents_first`: here `base` (2) is freed and `app` (1), which was bound to it, is lost and is not; in `hostile3`, `app` (8) is freed before `base` (9). -/
example : publishedBound (wafter hostile4).1 1 2 = true ∧ (wafter hostile4).1.begins = [2] ∧ (wafter hostile4).2 = [1] ∧ publishedBound (wafter hostile3).1 8 9 = true ∧
    (wafter hostile3).1.begins = [1, 8, 9] := by decide +kernel

/-- From the first of these states, the reload, and then one nanosecond less than the delay; then `Current()` and `ReloadCounter()`. -/
def hostile5 : List WLabel := hostile1 ++ ((callSteps (.reload none) (env both (fs 12 23 goodBase goodApp)) 22 ++ [Label.tick 14999999999, .read, .readCounter]).map NLabel.go).map .go

theorem hostile5_reachable : WReachable cfg (wafter hostile5).1 (wafter hostile5).2 := wafter_reachable (by decide +kernel)

/-- The hypotheses of `C91_usable`: `app` (1) and `base` (2) of the manager current after `hostile1` can be used in `hostile5`; with one nanosecond more, in `hostile2`, the first one is freed. `Current()` shows the new manager,
`ReloadCounter()` is 1 although three reloads have been called. -/
example : (wafter hostile1).1.running.isNone = true ∧ (wafter hostile1).1.currentInsts = [2, 1] ∧ (wafter hostile5).1.now + 1 = (wafter hostile1).1.now + 15000000000 ∧ (wafter hostile5).1.begins = [] ∧
    (wafter hostile2).1.now = (wafter hostile1).1.now + 15000000000 ∧ (wafter hostile2).1.begins = [1] ∧ (wafter hostile5).1.counter = 1 ∧
    (wafter hostile5).1.trace.filterMap (fun e => match e.2 with | .observed x => some x | _ => none) = [(wafter hostile5).1.current.map (·.mid)] ∧ (wafter hostile5).1.current.isSome = true ∧
    (wafter hostile5).1.trace.countP (fun e => match e.2 with | .called (.reload _) => true | _ => false) = 3 := by decide +kernel

end Examples

end Hotswap
