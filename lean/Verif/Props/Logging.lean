import Verif.Proofs.LogPlan
import Verif.Proofs.FreeLog
import Verif.Props.Unprintable

/-!
# C94: what a load writes to the log, and loggers that panic

`planL lg` is a call with the logger `lg`: what it does and returns, and the lines it gives to the logger, each with the number of actions performed before it. `plan` is the call without a logger of the other files. The theorems are about any state
that a history with hostile user code can reach (C91).
-/

namespace Hotswap

section

variable [GoRuntime]

/-- **C94.** A logger that panics at none of the lines has no influence: the call does and returns what the call of the other files does and returns. -/
theorem C94_silent (lg : Logger) {cfg : Config} (hcfg : cfg.OK) {m : Machine} {L : List Nat} (h : WReachable cfg m L) (env : Env) (k : Kind)
    (hq : ∀ i, i < (planL quiet cfg env k m.current m.next).lines.length → lg i = false) :
    (planL lg cfg env k m.current m.next).plan = plan cfg env k m.current m.next ∧
    (planL lg cfg env k m.current m.next).lines = (planL quiet cfg env k m.current m.next).lines := by
  rcases (planL_rel lg cfg env k m.current m.next).2 with ⟨h1, h2, _⟩ | hc
  · exact ⟨plan_ext h1, h2⟩
  · obtain ⟨n, pos, l, ⟨h1, _⟩, h2, _⟩ := cut_plan hcfg lg k (WReachable.sound hcfg h) hc
    rw [hq n (List.getElem?_eq_some_iff.mp h2).1] at h1
    cases h1

/-- **C94.** A logger that panics ends the call at that line: an error is returned, and everything that the call has taken is released. -/
theorem C94_cut (lg : Logger) {cfg : Config} (hcfg : cfg.OK) {m : Machine} {L : List Nat} (h : WReachable cfg m L) (env : Env) (k : Kind) {n pos : Nat} {l : Line}
    (hp : PanicsFirst lg n) (hl : (planL quiet cfg env k m.current m.next).lines[n]? = some (pos, l)) :
    (planL lg cfg env k m.current m.next).lines = (planL quiet cfg env k m.current m.next).lines.take (n + 1) ∧
    CutAt (plan cfg env k m.current m.next) pos l (planL lg cfg env k m.current m.next).plan := by
  rcases (planL_rel lg cfg env k m.current m.next).2 with ⟨_, _, h1⟩ | hc
  · have := h1 n (List.getElem?_eq_some_iff.mp hl).1
    rw [hp.1] at this
    cases this
  · obtain ⟨n', pos', l', h1, h2, h3, h4⟩ := cut_plan hcfg lg k (WReachable.sound hcfg h) hc
    have e : n' = n := by
      rcases Nat.lt_trichotomy n n' with h | h | h
      · have := h1.2 n h; rw [hp.1] at this; cases this
      · exact h.symm
      · have := hp.2 n' h; rw [h1.1] at this; cases this
    subst e
    rw [hl] at h2
    injection h2 with h2
    injection h2 with h2 h5
    subst h2 h5
    exact ⟨h3, h4⟩

/-- **C94.** Such a call changes nothing: it publishes nothing, calls no callback, starts no delayed free, and does not count. -/
theorem C94_cut_harmless (lg : Logger) {cfg : Config} (hcfg : cfg.OK) {m : Machine} {L : List Nat} (h : WReachable cfg m L) (env : Env) (k : Kind) {n pos : Nat} {l : Line}
    (hp : PanicsFirst lg n) (hl : (planL quiet cfg env k m.current m.next).lines[n]? = some (pos, l)) :
    ∀ a ∈ (planL lg cfg env k m.current m.next).plan.acts, (∀ pm, a ≠ .publish pm) ∧ (∀ i x y, a ≠ .callback i x y) ∧ (∀ om, a ≠ .spawnFree om) ∧ a ≠ .count := by
  obtain ⟨_, hc⟩ := C94_cut lg hcfg h env k hp hl
  obtain ⟨rel, ha, _⟩ := hc.acts
  intro a hmem
  rw [ha] at hmem
  rcases List.mem_append.mp hmem with hm | hm
  · have := hc.early a hm
    refine ⟨?_, ?_, ?_, ?_⟩ <;> intros <;> rintro rfl <;> simp [Act.stage] at this
  · obtain ⟨i, _, rfl⟩ := List.mem_map.mp hm
    simp

theorem inc_of_isInc {a : Act} : a.isInc = true ↔ ∃ i, a = .inc i := by
  cases a <;> simp [Act.isInc]

theorem statsFirst_of {old : Option Manager} {fs : FS} {files : List Str} {s : LogSt} (h : StatsLogged old fs files s) : StatsFirst old fs files s.st.acts s.lines := by
  obtain ⟨k, a, b, c, rest, h1, h2, h3, h4, h5, h6⟩ := h
  refine ⟨k, a, b, c, rest, h1, h2, h3, h4, fun x hx => inc_of_isInc.mp (h5 x hx), fun x hx i e => ?_⟩
  have := h6 x hx
  rw [e] at this
  cases this

/-- **C94.** A load that is not static and does anything, whatever the logger does, first writes the line about the files. The three lists of the line say which plugins are kept because they are not reloadable, which are kept because their files
have not changed, and which are to be loaded. -/
theorem C94_stats (lg : Logger) {cfg : Config} (hcfg : cfg.OK) {m : Machine} {L : List Nat} (h : WReachable cfg m L) (env : Env) (k : Kind) (hd : cfg.static = none ∨ k ≠ .load) :
    ((planL lg cfg env k m.current m.next).lines = [] ∧ ∀ a ∈ (planL lg cfg env k m.current m.next).plan.acts, a = .count) ∨
    ∃ absDir entries, env.dir = some (absDir, entries) ∧
      StatsFirst m.current env.fs (listedFiles cfg absDir entries) (planL lg cfg env k m.current m.next).plan.acts (planL lg cfg env k m.current m.next).lines := by
  obtain ⟨h1, h2⟩ := planL_eq_call lg cfg env k m.current m.next
  have ha : (planL lg cfg env k m.current m.next).plan.acts = (callL lg cfg env k m.current (logStart m.next)).2.st.acts := congrArg (·.2.acts) h1
  rw [ha, h2]
  rcases (call_end hcfg (env := env) lg k (WReachable.sound hcfg h)).st.1 hd with h3 | ⟨absDir, entries, hdir, h3⟩
  · exact .inl h3
  · exact .inr ⟨absDir, entries, hdir, statsFirst_of h3⟩

/-- **C94.** The lines about hooks are exactly the calls of `OnLoad` and `OnInit`: each call is announced by a line with the name of its plugin, written immediately before it, in the same order; and nothing else is announced. -/
theorem C94_hooks {cfg : Config} (hcfg : cfg.OK) {m : Machine} {L : List Nat} (h : WReachable cfg m L) (env : Env) (k : Kind) :
    ∃ nm, NamesOf nm (plan cfg env k m.current m.next).built ∧
      (planL quiet cfg env k m.current m.next).lines.filter (fun x => x.2.isHook) = announced nm 0 (plan cfg env k m.current m.next).acts := by
  obtain ⟨nm, hnm⟩ := names_exist (plan_view hcfg (env := env) (k := k) (WReachable.sound hcfg h)).built_nodup
  refine ⟨nm, hnm, ?_⟩
  have he := erases_call cfg env k m.current (logStart m.next)
  have g5 := plan_eq_call cfg env k m.current m.next
  rw [← he] at g5
  have hacts : (plan cfg env k m.current m.next).acts = (callL quiet cfg env k m.current (logStart m.next)).2.st.acts := congrArg (·.2.acts) g5
  have hbuilt : (plan cfg env k m.current m.next).built = (callL quiet cfg env k m.current (logStart m.next)).2.st.pm := congrArg (·.2.pm) g5
  rw [(planL_eq_call quiet cfg env k m.current m.next).2, hacts]
  exact (call_end hcfg (env := env) quiet k (WReachable.sound hcfg h)).told rfl nm (by rw [← hbuilt]; exact hnm)

/-- **C94.** Under static linking the last line of a successful load says so: it is written after all hooks, and before the first callback and the publication. A load that fails earlier does not write it. -/
theorem C94_static {cfg : Config} (hcfg : cfg.OK) {m : Machine} {L : List Nat} (h : WReachable cfg m L) (env : Env) (hst : cfg.static ≠ none) :
    ((∀ x ∈ (planL quiet cfg env .load m.current m.next).lines, x.2.isHook = true) ∧ ∀ a ∈ (plan cfg env .load m.current m.next).acts, ¬ a.outer) ∨
    StaticLast (plan cfg env .load m.current m.next).acts (planL quiet cfg env .load m.current m.next).lines := by
  have he := erases_call cfg env .load m.current (logStart m.next)
  have g5 := plan_eq_call cfg env .load m.current m.next
  rw [← he] at g5
  have hacts : (plan cfg env .load m.current m.next).acts = (callL quiet cfg env .load m.current (logStart m.next)).2.st.acts := congrArg (·.2.acts) g5
  rw [(planL_eq_call quiet cfg env .load m.current m.next).2, hacts]
  have outer : ∀ a : Act, a.isOuter = true ↔ a.outer := fun a => by cases a <;> simp [Act.isOuter, Act.outer]
  rcases (call_end hcfg (env := env) quiet .load (WReachable.sound hcfg h)).st.2 hst rfl rfl with ⟨h1, h2⟩ | ⟨hl, k, a, h1, h2, h3, h4, h5⟩
  · exact .inl ⟨h1, fun a ha ho => by have := h2 a ha; rw [(outer a).mpr ho] at this; cases this⟩
  · exact .inr ⟨hl, k, a, h1, h2, h3, (outer a).mp h4, fun x hx ho => by
      have := h5 x hx
      cases x <;> simp [Act.stage] at this <;> exact ho⟩

/-- **C94.** With a nil logger no load that is not static opens a plugin or calls a hook. If it is not refused before, and there are files, it returns an error after it has taken the references on the kept plugins, and it gives them back. -/
theorem C94_nil_logger {cfg : Config} (hcfg : cfg.OK) {m : Machine} {L : List Nat} (h : WReachable cfg m L) (env : Env) (k : Kind) (hd : cfg.static = none ∨ k ≠ .load) :
    ((planL nilLogger cfg env k m.current m.next).plan = plan cfg env k m.current m.next ∧ ∀ a ∈ (plan cfg env k m.current m.next).acts, a = .count) ∨
    ((planL nilLogger cfg env k m.current m.next).plan.res = .err (.panicked none .user) ∧
      ∃ taken rel : List Nat, (planL nilLogger cfg env k m.current m.next).plan.acts = taken.map Act.inc ++ rel.map Act.release ∧ taken.Perm rel ∧ taken.Nodup) := by
  have hq : (planL quiet cfg env k m.current m.next).plan = plan cfg env k m.current m.next := plan_ext (planL_rel quiet cfg env k m.current m.next).1
  rcases C94_stats quiet hcfg h env k hd with ⟨h1, h2⟩ | ⟨absDir, entries, _, k0, a, b, c, rest, h1, _, _, h4, h5, _⟩
  · left
    rw [hq] at h2
    exact ⟨(C94_silent nilLogger hcfg h env k (by simp [h1])).1, h2⟩
  · right
    rw [hq] at h4 h5
    obtain ⟨_, hc⟩ := C94_cut nilLogger hcfg h env k (n := 0) (pos := k0) (l := .stats a b c) ⟨rfl, fun i hi => absurd hi (by omega)⟩ (by rw [h1]; rfl)
    refine ⟨hc.res, ?_⟩
    obtain ⟨rel, ha, hp, hn⟩ := hc.acts
    have key : ∀ l : List Act, (∀ x ∈ l, ∃ i, x = .inc i) → l = (acquired l).map Act.inc := by
      intro l
      induction l with
      | nil => intro _; rfl
      | cons x r ih =>
        intro hx
        obtain ⟨i, rfl⟩ := hx x (by simp)
        have := ih (fun y hy => hx y (by simp [hy]))
        change _ = Act.inc i :: (acquired r).map Act.inc
        rw [← this]
    exact ⟨acquired ((plan cfg env k m.current m.next).acts.take k0), rel, by rw [← key _ h5]; exact ha, hp, hp.symm.nodup hn⟩

/-! ### the release of plugins -/

/-- **C94.** The release of the plugins of a manager, with any logger. (A manager that has been published can be released: `SoundManager.releasable`; so can one that a failed call has left behind: C96.) -/
theorem C94_free (lg : FreeLogger) {pm : Manager} (hs : Releasable pm) (it : Iter) (s : FreeSt) :
    ∃ pre post nl, FreeRun (freeOrder it pm) s (FreeLog.invokeEveryOnFree lg it pm s).2 (FreeLog.invokeEveryOnFree lg it pm s).1 pre post nl :=
  FreeLog.many lg _ (hs.order_nodup it).1 (hs.order_nodup it).2 s

/-- **C94.** A logger that does not panic has no influence: no panic escapes, all counts are decremented, and `OnFree` is called, in this order, on the plugins whose count has become zero and that have not been freed before. -/
theorem C94_free_quiet {lg : FreeLogger} (hq : ∀ h l, lg h l = false) {pm : Manager} (hs : Releasable pm) (it : Iter) (s : FreeSt) (h0 : s.lines = []) :
    (FreeLog.invokeEveryOnFree lg it pm s).1 = false ∧
    (FreeLog.invokeEveryOnFree lg it pm s).2.called = s.called ++ ((freeOrder it pm).filter (fun p => s.refs p.inst ≤ 1 ∧ s.used p.inst = false)).map (·.inst) ∧
    ∀ i, (FreeLog.invokeEveryOnFree lg it pm s).2.refs i = if i ∈ (freeOrder it pm).map (·.inst) then s.refs i - 1 else s.refs i := by
  obtain ⟨pre, post, nl, h⟩ := C94_free lg hs it s
  have hl := FreeLog.lines_told lg (freeOrder it pm) s
  have hl' : ∀ x ∈ nl, x.2 = false := by
    intro x hx
    obtain ⟨hh, e⟩ := hl x (by unfold FreeLog.invokeEveryOnFree at h; rw [h.lines]; exact List.mem_append_right _ hx) (by simp [h0])
    rw [e, hq]
  have he : (FreeLog.invokeEveryOnFree lg it pm s).1 = false := by
    cases he : (FreeLog.invokeEveryOnFree lg it pm s).1 with
    | false => rfl
    | true =>
      obtain ⟨_, p, nl0, _, h2, _⟩ := h.stop he
      have := hl' (.failed p.name, true) (by rw [h2]; simp)
      cases this
  obtain ⟨rfl, _⟩ := h.all he
  have hsp : freeOrder it pm = pre := by rw [h.split, List.append_nil]
  refine ⟨he, ?_, ?_⟩
  · rw [h.called, hsp]
    congr 2
    refine List.filter_congr (fun p hp => ?_)
    have : s.refs p.inst ≤ 1 → (FreeLine.freeing p.name, false) ∈ nl := by
      intro hr
      have : p.name ∈ nl.filterMap freeingName := by rw [h.announced]; exact List.mem_map.mpr ⟨p, List.mem_filter.mpr ⟨hp, by simpa using hr⟩, rfl⟩
      obtain ⟨⟨l, b⟩, hm, e⟩ := List.mem_filterMap.mp this
      cases l <;> simp [freeingName] at e
      subst e
      have := hl' _ hm
      simp only at this
      subst this
      exact hm
    by_cases hr : s.refs p.inst ≤ 1
    · simp [hr, this hr]
    · simp [hr]
  · intro i
    rw [hsp]
    exact h.refs i

/-- **C94.** If all plugins are still held by others, nothing is written, and any logger will do. -/
theorem C94_free_shared (lg : FreeLogger) {pm : Manager} (hs : Releasable pm) (it : Iter) (s : FreeSt) (hr : ∀ i ∈ pm.insts, 1 < s.refs i) :
    (FreeLog.invokeEveryOnFree lg it pm s).1 = false ∧ (FreeLog.invokeEveryOnFree lg it pm s).2.lines = s.lines ∧ (FreeLog.invokeEveryOnFree lg it pm s).2.called = s.called := by
  obtain ⟨pre, post, nl, h⟩ := C94_free lg hs it s
  have hp := hs.order_perm it
  have hno : ∀ p ∈ pre, ¬ s.refs p.inst ≤ 1 := by
    intro p hm
    have : p ∈ pm.pluginMap.vals := hp.mem_iff.mp (by rw [h.split]; exact List.mem_append_left _ hm)
    have := hr p.inst (List.mem_map.mpr ⟨p, this, rfl⟩)
    omega
  have hnl : nl = [] := by
    cases hx : nl with
    | nil => rfl
    | cons x r =>
      obtain ⟨l, b⟩ := x
      cases l with
      | freeing n =>
        have : n ∈ nl.filterMap freeingName := FreeLog.mem_freeing (b := b) (by rw [hx]; simp)
        rw [h.announced] at this
        obtain ⟨p, hp, _⟩ := List.mem_map.mp this
        have := List.mem_filter.mp hp
        exact absurd (by simpa using this.2) (hno p this.1)
      | failed n =>
        obtain ⟨p, hp, _, h1, _⟩ := (h.failed n).mp ⟨b, by rw [hx]; simp⟩
        exact absurd h1 (hno p hp)
  subst hnl
  refine ⟨?_, by rw [h.lines, List.append_nil], ?_⟩
  · cases he : (FreeLog.invokeEveryOnFree lg it pm s).1 with
    | false => rfl
    | true =>
      obtain ⟨_, p, nl0, _, h2, _⟩ := h.stop he
      simp at h2
  · rw [h.called]; simp

/-- **C94.** With a nil logger `OnFree` is never called; as soon as the count of a plugin becomes zero, a panic escapes, and the plugins after it keep their references. -/
theorem C94_free_nil {lg : FreeLogger} (hq : ∀ h l, lg h l = true) {pm : Manager} (hs : Releasable pm) (it : Iter) (s : FreeSt) (h0 : s.lines = []) :
    (FreeLog.invokeEveryOnFree lg it pm s).2.called = s.called ∧
    ((FreeLog.invokeEveryOnFree lg it pm s).1 = true ↔ ∃ p ∈ freeOrder it pm, s.refs p.inst ≤ 1) ∧
    ∀ pre p post, freeOrder it pm = pre ++ p :: post → (∀ q ∈ pre, ¬ s.refs q.inst ≤ 1) → s.refs p.inst ≤ 1 → ∀ q ∈ post, (FreeLog.invokeEveryOnFree lg it pm s).2.refs q.inst = s.refs q.inst := by
  obtain ⟨pre, post, nl, h⟩ := C94_free lg hs it s
  have hl := FreeLog.lines_told lg (freeOrder it pm) s
  have hl' : ∀ x ∈ nl, x.2 = true := by
    intro x hx
    obtain ⟨hh, e⟩ := hl x (by unfold FreeLog.invokeEveryOnFree at h; rw [h.lines]; exact List.mem_append_right _ hx) (by simp [h0])
    rw [e, hq]
  have first : ∀ p ∈ pre, s.refs p.inst ≤ 1 → (FreeLine.failed p.name, true) ∈ nl := by
    intro p hp hr
    have : p.name ∈ nl.filterMap freeingName := by rw [h.announced]; exact List.mem_map.mpr ⟨p, List.mem_filter.mpr ⟨hp, by simpa using hr⟩, rfl⟩
    obtain ⟨⟨l, b⟩, hm, e⟩ := List.mem_filterMap.mp this
    cases l <;> simp [freeingName] at e
    subst e
    have hb := hl' _ hm
    simp only at hb
    subst hb
    obtain ⟨b, hb⟩ := (h.failed p.name).mpr ⟨p, hp, rfl, hr, .inl hm⟩
    have := hl' _ hb
    simp only at this
    subst this
    exact hb
  refine ⟨?_, ⟨?_, ?_⟩, ?_⟩
  · rw [h.called]
    have : pre.filter (fun p => decide (s.refs p.inst ≤ 1 ∧ s.used p.inst = false ∧ (FreeLine.freeing p.name, false) ∈ nl)) = [] := by
      rw [List.filter_eq_nil_iff]
      intro p _ hc
      have := hl' _ (of_decide_eq_true hc).2.2
      cases this
    rw [this]; simp
  · intro he
    obtain ⟨pre0, p, nl0, h1, h2, _⟩ := h.stop he
    obtain ⟨q, hq, _, hr, _⟩ := (h.failed p.name).mp ⟨true, by rw [h2]; simp⟩
    exact ⟨q, by rw [h.split]; exact List.mem_append_left _ hq, hr⟩
  · rintro ⟨p, hp, hr⟩
    cases he : (FreeLog.invokeEveryOnFree lg it pm s).1 with
    | true => rfl
    | false =>
      obtain ⟨rfl, h2⟩ := h.all he
      rw [h.split, List.append_nil] at hp
      exact absurd (first p hp hr) (h2 p.name)
  · intro pre' p post' hsp hno hr q hq
    have he : (FreeLog.invokeEveryOnFree lg it pm s).1 = true := by
      cases he : (FreeLog.invokeEveryOnFree lg it pm s).1 with
      | true => rfl
      | false =>
        obtain ⟨rfl, h2⟩ := h.all he
        exact absurd (first p (by rw [h.split, List.append_nil] at hsp; rw [hsp]; simp) hr) (h2 p.name)
    obtain ⟨pre0, p', nl0, h1, h2, h3⟩ := h.stop he
    have hn := hs.order_nodup it
    -- the plugin visited last has count zero, and no one before it has
    have hp' : s.refs p'.inst ≤ 1 := by
      obtain ⟨q', hq', e, hr', _⟩ := (h.failed p'.name).mp ⟨true, by rw [h2]; simp⟩
      have : q' = p' := List.inj_on_of_nodup_map hn.2 (by rw [h.split]; exact List.mem_append_left _ hq') (by rw [h.split, h1]; simp) e
      rw [← this]; exact hr'
    have hpre0 : ∀ q ∈ pre0, ¬ s.refs q.inst ≤ 1 := by
      intro q' hq' hr'
      have := first q' (by rw [h1]; simp [hq']) hr'
      rw [h2] at this
      rcases List.mem_append.mp this with hm | hm
      · exact h3 _ hm
      · simp at hm
        have e : q' = p' := List.inj_on_of_nodup_map hn.2 (by rw [h.split, h1]; simp [hq']) (by rw [h.split, h1]; simp) hm
        subst e
        have := hn.1
        rw [h.split, h1] at this
        simp only [List.append_assoc, List.map_append, List.map_cons] at this
        rw [List.nodup_append] at this
        exact this.2.2 _ (List.mem_map.mpr ⟨_, hq', rfl⟩) _ (by simp) rfl
    have heq : pre' = pre0 ∧ p = p' ∧ post' = post := by
      have e : pre' ++ p :: post' = pre0 ++ p' :: post := by rw [← hsp, h.split, h1]; simp
      exact FreeLog.split_unique (fun x => s.refs x.inst ≤ 1) hno hr hpre0 hp' e
    obtain ⟨rfl, rfl, rfl⟩ := heq
    rw [h.refs, if_neg]
    intro hm
    have := hn.1
    rw [h.split, List.map_append, List.nodup_append] at this
    exact this.2.2 _ hm _ (List.mem_map.mpr ⟨q, hq, rfl⟩) rfl

end

namespace Demo

attribute [local instance] rt

/-- One plugin, linked statically. -/
def cfgLinked : Config := { cfg with static := some (GoMap.empty.insert "base".toList ⟨"base".toList, fun _ => false, goodBase⟩) }

/-- A logger that panics at the line with this number only. -/
def panicsAt (n : Nat) : Logger := fun i => i == n

def act? : Act → Option Nat
  | .inc i => some i
  | .release i => some (100 + i)
  | .callOnLoad i _ => some (200 + i)
  | .callOnInit i _ _ => some (300 + i)
  | _ => none

/-- The log of the reload of `app`, with the positions: `base` is kept. -/
example : (planL quiet cfg env2 (.reload none) m1.current m1.next).lines =
    [(1, .stats [] ["base".toList] ["app".toList]), (6, .onLoad "app".toList), (11, .onInit "app".toList)] := by decide +kernel

/-- The hypotheses of `C94_silent`: a logger that panics at the fourth line. -/
example : WReachable cfg m1 [] ∧ (∀ i, i < (planL quiet cfg env2 (.reload none) m1.current m1.next).lines.length → panicsAt 3 i = false) ∧ panicsAt 3 3 = true := by
  refine ⟨C91_with_nil (m1_reachable.nil cfg_ok), ?_, rfl⟩
  have : (planL quiet cfg env2 (.reload none) m1.current m1.next).lines.length = 3 := by decide +kernel
  rw [this]
  decide

/-- The hypotheses of `C94_cut`: the logger panics when `OnInit` of `app` is announced; `base` (2) and the new `app` (4) have been taken, and both are released. -/
example : WReachable cfg m1 [] ∧ PanicsFirst (panicsAt 2) 2 ∧ (planL quiet cfg env2 (.reload none) m1.current m1.next).lines[2]? = some (11, .onInit "app".toList) ∧
    error? (planL (panicsAt 2) cfg env2 (.reload none) m1.current m1.next).plan.res = some (.hookPanic "app".toList) ∧
    (planL (panicsAt 2) cfg env2 (.reload none) m1.current m1.next).plan.acts.filterMap act? = [2, 204, 104, 102] ∧
    (plan cfg env2 (.reload none) m1.current m1.next).acts.filterMap act? = [2, 204, 304] :=
  ⟨C91_with_nil (m1_reachable.nil cfg_ok), ⟨rfl, by decide⟩, by decide +kernel, by decide +kernel, by decide +kernel, by decide +kernel⟩

/-- `C94_nil_logger`: the second case. -/
example : error? (planL nilLogger cfg env2 (.reload none) m1.current m1.next).plan.res = some (.panicked none .user) ∧
    (planL nilLogger cfg env2 (.reload none) m1.current m1.next).plan.acts.filterMap act? = [2, 102] ∧ (planL nilLogger cfg env2 (.reload none) m1.current m1.next).lines.length = 1 :=
  ⟨by decide +kernel, by decide +kernel, by decide +kernel⟩

/-- `C94_static`: the second case. -/
example : (planL quiet cfgLinked env0 .load none 0).lines.map Prod.snd = [.onLoad "base".toList, .onInit "base".toList, .static] := by decide +kernel

/-- A logger that panics at the first line (and not at the lines of the release): the hook is not called, and the plugin is released. -/
example : error? (planL (panicsAt 0) cfgLinked env0 .load none 0).plan.res = some (.hookPanic "base".toList) ∧
    (planL (panicsAt 0) cfgLinked env0 .load none 0).plan.acts.filterMap act? = [101] := ⟨by decide +kernel, by decide +kernel⟩

/-- A logger that panics at the line about static linking: all hooks have run, and the load fails. -/
example : error? (planL (panicsAt 2) cfgLinked env0 .load none 0).plan.res = some (.panicked none .user) ∧
    (planL (panicsAt 2) cfgLinked env0 .load none 0).plan.acts.filterMap act? = [201, 301, 101] := ⟨by decide +kernel, by decide +kernel⟩

/-- The state before the release of the plugins of the first manager of the example: `base` (2) is shared with the second one, `app` (1) is not. -/
def beforeFree : FreeSt := { refs := fun i => if i = 2 then 2 else 1, used := fun _ => false, called := [], lines := [] }

def firstManager : Manager := m1.current.getD noManager

/-- The hypotheses of `C94_free`. -/
example : Releasable firstManager ∧ (freeOrder .id firstManager).map (·.inst) = [1, 2] := by
  refine ⟨SoundManager.releasable (next := m1.next) <| WReachable.sound cfg_ok (C91_with_nil (m1_reachable.nil cfg_ok)) firstManager ?_, by decide +kernel⟩
  have h : m1.current.isSome = true := by decide +kernel
  unfold firstManager
  cases e : m1.current with
  | none => rw [e] at h; cases h
  | some om => rfl

/-- A logger that does not panic: `app` is freed. A nil logger: it is not, and `base` keeps its count. -/
example : (FreeLog.invokeEveryOnFree (fun _ _ => false) .id firstManager beforeFree).2.called = [1] ∧
    (FreeLog.invokeEveryOnFree (fun _ _ => false) .id firstManager beforeFree).2.refs 2 = 1 ∧
    (FreeLog.invokeEveryOnFree (fun _ _ => true) .id firstManager beforeFree).1 = true ∧
    (FreeLog.invokeEveryOnFree (fun _ _ => true) .id firstManager beforeFree).2.called = [] ∧
    (FreeLog.invokeEveryOnFree (fun _ _ => true) .id firstManager beforeFree).2.refs 2 = 2 := by
  refine ⟨?_, ?_, ?_, ?_, ?_⟩ <;> decide +kernel

end Demo

end Hotswap
