import Verif.Proofs.LogRelease
import Verif.Props.Logging

/-!
# C96: a load that fails, with any logger, to its end

`callToEnd lg lgF` is a call with a logger that behaves like `lg` before the release of the new manager and like `lgF` during it; `escaped` says that a panic leaves `LoadPlugins` or `Reload`. The theorems are about a call that is made in any state that a history
with hostile user code can reach (C91) and in which no call is running.
-/

namespace Hotswap

section

variable [GoRuntime]

/-- Everything about the end of a call that fails. -/
theorem failed_call {cfg : Config} (hcfg : cfg.OK) {m : Machine} {L : List Nat} (h : WReachable cfg m L) (hrun : m.running = none) (env : Env) (k : Kind) (lg : Logger) (lgF : FreeLogger) {x : Err}
    (hr : (planL lg cfg env k m.current m.next).plan.res = .err x) :
    ∃ (p : Plan) (e : Ended) (acts : List Act) (s : FreeSt) (pre post : List Plugin) (nl : List (FreeLine × Bool)),
      p = (planL lg cfg env k m.current m.next).plan ∧ e = callToEnd lg lgF cfg env k m.current m.next m.freeSt ∧
      FailedEnd env.it p acts ∧ Takes m.current m.next acts ∧
      (∀ i, s.refs i = m.refs i + if i ∈ p.built.insts then 1 else 0) ∧ s.used = m.once ∧ s.called = [] ∧ s.lines = [] ∧
      e.res = .err x ∧ FreeRun (freeOrder env.it p.built) s e.st e.escaped pre post nl ∧ (e.escaped, e.st) = FreeLog.invokeEveryOnFree lgF env.it p.built s := by
  obtain ⟨acts, hf, ht⟩ := failedEnd hcfg lg k (WReachable.sound hcfg h) hr
  have hcount := idle_counts hcfg h hrun
  have hn : (acquired acts).Nodup := hf.acq.symm.nodup hf.rel.nodup
  have hacq : acquired (planL lg cfg env k m.current m.next).plan.acts = acquired acts := by
    rw [hf.acts, acquired_append, acquired_eq_nil (l := cleanupActs _ _) (fun a ha => by have := late_cleanup _ _ a ha; omega), List.append_nil]
  obtain ⟨h1, h2, h3, h4⟩ := take_counts (planL lg cfg env k m.current m.next).plan.acts m.freeSt (by rw [hacq]; exact hn) (fun i hi => by
    rw [hf.acts] at hi
    rcases List.mem_append.mp hi with hi | hi
    · exact (hcount.1 i (ht.regs i hi)).1
    · have := late_cleanup _ _ _ hi; simp [Act.stage] at this)
  obtain ⟨pre, post, nl, hrun⟩ := FreeLog.many lgF _ (hf.rel.order_nodup env.it).1 (hf.rel.order_nodup env.it).2 ((planL lg cfg env k m.current m.next).plan.acts.foldl FreeSt.take m.freeSt)
  refine ⟨_, _, acts, _, pre, post, nl, rfl, rfl, hf, ht, ?_, h2, h3, h4, ?_, ?_, ?_⟩
  · intro i
    rw [h1 i, hacq]
    have : i ∈ acquired acts ↔ i ∈ (planL lg cfg env k m.current m.next).plan.built.insts := hf.acq.mem_iff
    simp only [this]
    rfl
  · unfold callToEnd; simp only [hr]
  · unfold callToEnd; simp only [hr]; exact hrun
  · unfold callToEnd; simp only [hr]

theorem mem_built {cfg : Config} {m : Machine} {env : Env} {p : Plan} {acts : List Act} (hf : FailedEnd env.it p acts) (ht : Takes m.current m.next acts) {i : Nat} (hi : i ∈ p.built.insts) :
    i ∈ m.currentInsts ∨ m.next ≤ i ∧ Act.register i ∈ p.acts := by
  obtain ⟨a, ha, e⟩ := List.mem_filterMap.mp (hf.acq.mem_iff.mpr hi)
  cases a <;> simp [acquires] at e
  · subst e; exact .inr ⟨ht.regs _ ha, by rw [hf.acts]; exact List.mem_append_left _ ha⟩
  · subst e
    obtain ⟨om, ho, hm⟩ := ht.incs _ ha
    exact .inl (by unfold Machine.currentInsts; rw [ho]; exact hm)

/-- **C96.** A call that fails ends with the release of the manager that it has built; before that it has taken one reference on each plugin of that manager, and has released and published nothing. -/
theorem C96_release {cfg : Config} (hcfg : cfg.OK) {m : Machine} {L : List Nat} (h : WReachable cfg m L) (env : Env) (k : Kind) (lg : Logger) {x : Err}
    (hr : (planL lg cfg env k m.current m.next).plan.res = .err x) :
    ∃ before, (planL lg cfg env k m.current m.next).plan.acts = before ++ (freeOrder env.it (planL lg cfg env k m.current m.next).plan.built).map (fun p => .release p.inst) ∧
      (∀ a ∈ before, (∀ i, a ≠ .release i) ∧ (∀ pm, a ≠ .publish pm) ∧ (∀ om, a ≠ .spawnFree om) ∧ a ≠ .count) ∧
      (acquired before).Perm ((freeOrder env.it (planL lg cfg env k m.current m.next).plan.built).map (·.inst)) ∧ (acquired before).Nodup := by
  obtain ⟨acts, hf, _⟩ := failedEnd hcfg lg k (WReachable.sound hcfg h) hr
  refine ⟨acts, hf.acts, fun a ha => ?_, hf.acq.trans (hf.rel.insts_perm env.it).symm, hf.acq.symm.nodup hf.rel.nodup⟩
  have := hf.stage a ha
  refine ⟨?_, ?_, ?_, ?_⟩ <;> intros <;> rintro rfl <;> simp [Act.stage] at this

/-- **C96.** The counts after a call that fails: those of the plugins that the release has visited are what they were before the call; if a panic of the logger ends the release, each of the others keeps one reference. No count is lower than before the call. -/
theorem C96_counts {cfg : Config} (hcfg : cfg.OK) {m : Machine} {L : List Nat} (h : WReachable cfg m L) (hrun : m.running = none) (env : Env) (k : Kind) (lg : Logger) (lgF : FreeLogger) {x : Err}
    (hr : (planL lg cfg env k m.current m.next).plan.res = .err x) :
    ∃ pre post, freeOrder env.it (planL lg cfg env k m.current m.next).plan.built = pre ++ post ∧
      ((callToEnd lg lgF cfg env k m.current m.next m.freeSt).escaped = false → post = []) ∧
      ∀ i, (callToEnd lg lgF cfg env k m.current m.next m.freeSt).st.refs i = m.refs i + if i ∈ post.map (·.inst) then 1 else 0 := by
  obtain ⟨p, e, acts, s, pre, post, nl, rfl, rfl, hf, ht, h1, h2, h3, h4, h5, hfr, _⟩ := failed_call hcfg h hrun env k lg lgF hr
  refine ⟨pre, post, hfr.split, fun he => (hfr.all he).1, fun i => ?_⟩
  have hp := hf.rel.insts_perm env.it
  have hn := (hf.rel.order_nodup env.it).1
  rw [hfr.split, List.map_append] at hp hn
  rw [List.nodup_append] at hn
  have hm : i ∈ (planL lg cfg env k m.current m.next).plan.built.insts ↔ i ∈ pre.map (·.inst) ∨ i ∈ post.map (·.inst) := by rw [← hp.mem_iff, List.mem_append]
  rw [hfr.refs, h1]
  by_cases hi : i ∈ pre.map (·.inst)
  · have hnp : i ∉ post.map (·.inst) := fun hq => hn.2.2 i hi i hq rfl
    rw [if_pos hi, if_pos (hm.mpr (.inl hi)), if_neg hnp]
    omega
  · rw [if_neg hi]
    by_cases hq : i ∈ post.map (·.inst)
    · rw [if_pos hq, if_pos (hm.mpr (.inr hq))]
    · rw [if_neg hq, if_neg (fun hx => (hm.mp hx).elim hi hq)]

/-- **C96.** No plugin of the current manager is freed, whatever the logger does; the plugins that are freed are new, and each is freed once. -/
theorem C96_called {cfg : Config} (hcfg : cfg.OK) {m : Machine} {L : List Nat} (h : WReachable cfg m L) (hrun : m.running = none) (env : Env) (k : Kind) (lg : Logger) (lgF : FreeLogger) {x : Err}
    (hr : (planL lg cfg env k m.current m.next).plan.res = .err x) :
    (callToEnd lg lgF cfg env k m.current m.next m.freeSt).st.called.Nodup ∧
    ∀ i ∈ (callToEnd lg lgF cfg env k m.current m.next m.freeSt).st.called, i ∉ m.currentInsts ∧ m.next ≤ i ∧ Act.register i ∈ (planL lg cfg env k m.current m.next).plan.acts := by
  have hcount := idle_counts hcfg h hrun
  obtain ⟨p, e, acts, s, pre, post, nl, rfl, rfl, hf, ht, h1, h2, h3, h4, h5, hfr, _⟩ := failed_call hcfg h hrun env k lg lgF hr
  have hn := (hf.rel.order_nodup env.it).1
  rw [hfr.split, List.map_append] at hn
  rw [hfr.called, h3, List.nil_append]
  refine ⟨((List.filter_sublist).map _).nodup hn.of_append_left, fun i hi => ?_⟩
  obtain ⟨q, hq, rfl⟩ := List.mem_map.mp hi
  obtain ⟨hq, hc⟩ := List.mem_filter.mp hq
  have hb : q.inst ∈ (planL lg cfg env k m.current m.next).plan.built.insts := by
    rw [← (hf.rel.insts_perm env.it).mem_iff, hfr.split]
    exact List.mem_map.mpr ⟨q, List.mem_append_left _ hq, rfl⟩
  have hle := (of_decide_eq_true hc).1
  rw [h1, if_pos hb] at hle
  have hnc : q.inst ∉ m.currentInsts := fun hx => by have := (hcount.2 _ hx).1; omega
  rcases mem_built (cfg := cfg) hf ht hb with hx | hx
  · exact absurd hx hnc
  · exact ⟨hnc, hx⟩

/-- The new plugins of a release, in its order. -/
def newOnes (n0 : Nat) (ps : List Plugin) : List Nat := (ps.map (·.inst)).filter (fun i => n0 ≤ i)

/-- **C96.** If the logger does not panic during the release, the call returns its error, the counts are what they were, and `OnFree` is called on every new plugin, in the order of the release. -/
theorem C96_quiet {cfg : Config} (hcfg : cfg.OK) {m : Machine} {L : List Nat} (h : WReachable cfg m L) (hrun : m.running = none) (env : Env) (k : Kind) (lg : Logger) {lgF : FreeLogger}
    (hq : ∀ w l, lgF w l = false) {x : Err} (hr : (planL lg cfg env k m.current m.next).plan.res = .err x) :
    (callToEnd lg lgF cfg env k m.current m.next m.freeSt).escaped = false ∧ (callToEnd lg lgF cfg env k m.current m.next m.freeSt).res = .err x ∧
    (callToEnd lg lgF cfg env k m.current m.next m.freeSt).st.refs = m.refs ∧
    (callToEnd lg lgF cfg env k m.current m.next m.freeSt).st.called = newOnes m.next (freeOrder env.it (planL lg cfg env k m.current m.next).plan.built) := by
  have hcount := idle_counts hcfg h hrun
  obtain ⟨pre', post', hs', ha', hc'⟩ := C96_counts hcfg h hrun env k lg lgF hr
  obtain ⟨p, e, acts, s, pre, post, nl, rfl, rfl, hf, ht, h1, h2, h3, h4, h5, hfr, heq⟩ := failed_call hcfg h hrun env k lg lgF hr
  have hl : ∀ y ∈ nl, y.2 = false := by
    intro y hy
    obtain ⟨w, e⟩ := FreeLog.lines_told lgF (freeOrder env.it (planL lg cfg env k m.current m.next).plan.built) s y (by
      have e2 : (FreeLog.loop lgF (freeOrder env.it (planL lg cfg env k m.current m.next).plan.built) s).2 = (callToEnd lg lgF cfg env k m.current m.next m.freeSt).st := (congrArg Prod.snd heq).symm
      rw [e2, hfr.lines]; exact List.mem_append_right _ hy) (by simp [h4])
    rw [e, hq]
  have he : (callToEnd lg lgF cfg env k m.current m.next m.freeSt).escaped = false := by
    cases he : (callToEnd lg lgF cfg env k m.current m.next m.freeSt).escaped with
    | false => rfl
    | true =>
      obtain ⟨_, p, nl0, _, e2, _⟩ := hfr.stop he
      have := hl (.failed p.name, true) (by rw [e2]; simp)
      cases this
  refine ⟨he, h5, ?_, ?_⟩
  · funext i
    rw [hc' i, ha' he]
    simp
  · obtain ⟨rfl, _⟩ := hfr.all he
    have hsp : freeOrder env.it (planL lg cfg env k m.current m.next).plan.built = pre := by rw [hfr.split, List.append_nil]
    rw [hfr.called, h3, List.nil_append, hsp]
    unfold newOnes
    rw [List.filter_map]
    congr 1
    refine List.filter_congr (fun q hqm => ?_)
    have hb : q.inst ∈ (planL lg cfg env k m.current m.next).plan.built.insts := by
      rw [← (hf.rel.insts_perm env.it).mem_iff, hsp]
      exact List.mem_map.mpr ⟨q, hqm, rfl⟩
    have hann : s.refs q.inst ≤ 1 → (FreeLine.freeing q.name, false) ∈ nl := by
      intro hle
      have : q.name ∈ nl.filterMap freeingName := by rw [hfr.announced]; exact List.mem_map.mpr ⟨q, List.mem_filter.mpr ⟨hqm, by simpa using hle⟩, rfl⟩
      obtain ⟨⟨l, b⟩, hm, e⟩ := List.mem_filterMap.mp this
      cases l <;> simp [freeingName] at e
      subst e
      have := hl _ hm
      simp only at this
      subst this
      exact hm
    have hle := h1 q.inst
    rw [if_pos hb] at hle
    simp only [Function.comp]
    rw [decide_eq_decide]
    constructor
    · rintro ⟨g, _⟩
      rcases mem_built (cfg := cfg) hf ht hb with hx | hx
      · have := (hcount.2 _ hx).1; omega
      · exact hx.1
    · intro g
      have := hcount.1 _ g
      have g1 : s.refs q.inst ≤ 1 := by omega
      exact ⟨g1, by rw [h2]; exact this.2, hann g1⟩

/-- **C96.** A panic leaves the call only if the logger panics at the report of a panic of `OnFree` or of the logger; that is the last line that it is given. -/
theorem C96_escaped {cfg : Config} (hcfg : cfg.OK) {m : Machine} {L : List Nat} (h : WReachable cfg m L) (hrun : m.running = none) (env : Env) (k : Kind) (lg : Logger) (lgF : FreeLogger)
    (he : (callToEnd lg lgF cfg env k m.current m.next m.freeSt).escaped = true) :
    ∃ p ∈ freeOrder env.it (planL lg cfg env k m.current m.next).plan.built, ∃ lines, (callToEnd lg lgF cfg env k m.current m.next m.freeSt).st.lines = lines ++ [(.failed p.name, true)] ∧
      (∀ n, (FreeLine.failed n, true) ∉ lines) ∧ ((FreeLine.freeing p.name, true) ∈ lines ∨ p.code.onFreePanics = true) ∧ m.next ≤ p.inst := by
  have hcount := idle_counts hcfg h hrun
  have hr : ∃ x, (planL lg cfg env k m.current m.next).plan.res = .err x := by
    unfold callToEnd at he
    cases hx : (planL lg cfg env k m.current m.next).plan.res with
    | err x => exact ⟨x, rfl⟩
    | ok d => simp [hx] at he
    | panic d => simp [hx] at he
  obtain ⟨x, hr⟩ := hr
  obtain ⟨p, e, acts, s, pre, post, nl, rfl, rfl, hf, ht, h1, h2, h3, h4, h5, hfr, _⟩ := failed_call hcfg h hrun env k lg lgF hr
  obtain ⟨pre0, q, nl0, g1, g2, g3⟩ := hfr.stop he
  obtain ⟨q', hq', e, hle, hc⟩ := (hfr.failed q.name).mp ⟨true, by rw [g2]; simp⟩
  have hqq : q' = q := List.inj_on_of_nodup_map (hf.rel.order_nodup env.it).2 (by rw [hfr.split]; exact List.mem_append_left _ hq') (by rw [hfr.split, g1]; simp) e
  subst hqq
  have hmem : q' ∈ freeOrder env.it (planL lg cfg env k m.current m.next).plan.built := by rw [hfr.split]; exact List.mem_append_left _ hq'
  refine ⟨q', hmem, nl0, by rw [hfr.lines, h4, g2]; rfl, g3, ?_, ?_⟩
  · rcases hc with hc | hc
    · rw [g2] at hc
      rcases List.mem_append.mp hc with hc | hc
      · exact .inl hc
      · simp at hc
    · exact .inr hc.2
  · have hb : q'.inst ∈ (planL lg cfg env k m.current m.next).plan.built.insts := by
      rw [← (hf.rel.insts_perm env.it).mem_iff]
      exact List.mem_map.mpr ⟨q', hmem, rfl⟩
    rw [h1, if_pos hb] at hle
    rcases mem_built (cfg := cfg) hf ht hb with hx | hx
    · have := (hcount.2 _ hx).1; omega
    · exact hx.1

/-- **C96.** With a nil logger a call that fails calls no `OnFree`, and a panic leaves it exactly if it has registered a new plugin. -/
theorem C96_nil {cfg : Config} (hcfg : cfg.OK) {m : Machine} {L : List Nat} (h : WReachable cfg m L) (hrun : m.running = none) (env : Env) (k : Kind) {lgF : FreeLogger}
    (hq : ∀ w l, lgF w l = true) {x : Err} (hr : (planL nilLogger cfg env k m.current m.next).plan.res = .err x) :
    (callToEnd nilLogger lgF cfg env k m.current m.next m.freeSt).st.called = [] ∧
    ((callToEnd nilLogger lgF cfg env k m.current m.next m.freeSt).escaped = true ↔ ∃ i, Act.register i ∈ (planL nilLogger cfg env k m.current m.next).plan.acts) := by
  have hcount := idle_counts hcfg h hrun
  obtain ⟨p, e, acts, s, pre, post, nl, rfl, rfl, hf, ht, h1, h2, h3, h4, h5, hfr, heq⟩ := failed_call hcfg h hrun env k nilLogger lgF hr
  obtain ⟨g1, g2, _⟩ := C94_free_nil hq hf.rel env.it s h4
  rw [← heq] at g1 g2
  refine ⟨by rw [← h3]; exact g1, g2.trans ⟨?_, ?_⟩⟩
  · rintro ⟨q, hqm, hle⟩
    have hb : q.inst ∈ (planL nilLogger cfg env k m.current m.next).plan.built.insts := by
      rw [← (hf.rel.insts_perm env.it).mem_iff]
      exact List.mem_map.mpr ⟨q, hqm, rfl⟩
    rw [h1, if_pos hb] at hle
    rcases mem_built (cfg := cfg) hf ht hb with hx | hx
    · have := (hcount.2 _ hx).1; omega
    · exact ⟨_, hx.2⟩
  · rintro ⟨i, hi⟩
    have hi' : Act.register i ∈ acts := by
      rw [hf.acts] at hi
      rcases List.mem_append.mp hi with hi | hi
      · exact hi
      · have := late_cleanup _ _ _ hi; simp [Act.stage] at this
    have hb : i ∈ (planL nilLogger cfg env k m.current m.next).plan.built.insts := hf.acq.mem_iff.mp (List.mem_filterMap.mpr ⟨_, hi', rfl⟩)
    obtain ⟨q, hqm, rfl⟩ := List.mem_map.mp ((hf.rel.insts_perm env.it).mem_iff.mpr hb)
    refine ⟨q, hqm, ?_⟩
    rw [h1, if_pos hb, (hcount.1 _ (ht.regs _ hi')).1]
    decide

/-- **C96.** Without static linking a nil logger lets no panic out: the call is refused or has nothing to do, or it returns an error and leaves all counts as they were. -/
theorem C96_nil_dynamic {cfg : Config} (hcfg : cfg.OK) {m : Machine} {L : List Nat} (h : WReachable cfg m L) (hrun : m.running = none) (env : Env) (k : Kind) (hd : cfg.static = none ∨ k ≠ .load)
    {lgF : FreeLogger} (hq : ∀ w l, lgF w l = true) :
    (callToEnd nilLogger lgF cfg env k m.current m.next m.freeSt).escaped = false ∧ (callToEnd nilLogger lgF cfg env k m.current m.next m.freeSt).st.refs = m.refs ∧
    (callToEnd nilLogger lgF cfg env k m.current m.next m.freeSt).st.called = [] := by
  have hno : ∀ i, Act.register i ∉ (planL nilLogger cfg env k m.current m.next).plan.acts := by
    intro i hi
    rcases C94_nil_logger hcfg h env k hd with ⟨e, ha⟩ | ⟨_, taken, rel, ha, _⟩
    · rw [e] at hi; have := ha _ hi; cases this
    · rw [ha] at hi; simp at hi
  cases hr : (planL nilLogger cfg env k m.current m.next).plan.res with
  | err x =>
    obtain ⟨h1, h2⟩ := C96_nil hcfg h hrun env k hq hr
    have he : (callToEnd nilLogger lgF cfg env k m.current m.next m.freeSt).escaped = false := by
      cases he : (callToEnd nilLogger lgF cfg env k m.current m.next m.freeSt).escaped with
      | false => rfl
      | true => obtain ⟨i, hi⟩ := h2.mp he; exact absurd hi (hno i)
    obtain ⟨pre, post, _, hp, hc⟩ := C96_counts hcfg h hrun env k nilLogger lgF hr
    refine ⟨he, ?_, h1⟩
    funext i
    rw [hc i, hp he]
    simp
  | ok d =>
    rcases C94_nil_logger hcfg h env k hd with ⟨e, ha⟩ | ⟨hx, _⟩
    · have hall : ∀ l : List Act, (∀ a ∈ l, a = .count) → ∀ s : FreeSt, l.foldl FreeSt.take s = s := by
        intro l
        induction l with
        | nil => intro _ s; rfl
        | cons a r ih => intro hl s; rw [List.foldl_cons, hl a (by simp)]; exact ih (fun b hb => hl b (by simp [hb])) s
      unfold callToEnd
      simp only [hr]
      rw [e, hall _ ha]
      exact ⟨trivial, rfl, rfl⟩
    · rw [hr] at hx; cases hx
  | panic d =>
    rcases C94_nil_logger hcfg h env k hd with ⟨e, ha⟩ | ⟨hx, _⟩
    · have hall : ∀ l : List Act, (∀ a ∈ l, a = .count) → ∀ s : FreeSt, l.foldl FreeSt.take s = s := by
        intro l
        induction l with
        | nil => intro _ s; rfl
        | cons a r ih => intro hl s; rw [List.foldl_cons, hl a (by simp)]; exact ih (fun b hb => hl b (by simp [hb])) s
      unfold callToEnd
      simp only [hr]
      rw [e, hall _ ha]
      exact ⟨trivial, rfl, rfl⟩
    · rw [hr] at hx; cases hx

/-- **C96.** Under static linking a load with a nil logger never succeeds; if it has registered a plugin, a panic leaves it. -/
theorem C96_nil_static {cfg : Config} (hcfg : cfg.OK) {m : Machine} {L : List Nat} (h : WReachable cfg m L) (hrun : m.running = none) (env : Env) (hst : cfg.static ≠ none)
    {lgF : FreeLogger} (hq : ∀ w l, lgF w l = true) :
    (∀ d, (callToEnd nilLogger lgF cfg env .load m.current m.next m.freeSt).res ≠ .ok d) ∧
    ((∃ i, Act.register i ∈ (planL nilLogger cfg env .load m.current m.next).plan.acts) → (callToEnd nilLogger lgF cfg env .load m.current m.next m.freeSt).escaped = true) := by
  have hno : ∀ d, (planL nilLogger cfg env .load m.current m.next).plan.res ≠ .ok d := by
    intro d hr
    rcases (planL_rel nilLogger cfg env .load m.current m.next).2 with ⟨h1, h2, h3⟩ | hc
    · have e := plan_ext h1
      rw [e] at hr
      have hlen : (planL quiet cfg env .load m.current m.next).lines = [] := by
        cases hx : (planL quiet cfg env .load m.current m.next).lines with
        | nil => rfl
        | cons a r => have := h3 0 (by rw [hx]; simp); cases this
      rcases C94_static hcfg h env hst with ⟨_, hout⟩ | ⟨hl, k, a, g, _⟩
      · cases plan_view hcfg (env := env) (k := .load) (WReachable.sound hcfg h) with
        | listErr e dyn why acts res next built => rw [hr] at res; cases res
        | empty absDir entries dyn dir wl none acts res next built => rcases dyn with hx | hx <;> contradiction
        | escaped ext panics acts res next built => rw [hr] at res; cases res
        | dynErr absDir entries dyn dir wl some s0 sb f cr failed body acts res next built => rw [hr] at res; cases res
        | dynCb absDir entries dyn dir wl some s0 s1 s cr done cbs n o rest split bad good acts res next built => rw [hr] at res; cases res
        | dynOk absDir entries dyn dir wl some s0 s1 s d cr done good details acts res next built => rcases dyn with hx | hx <;> contradiction
        | staticMissing sps e st kl sel acts res next built => rw [hr] at res; cases res
        | staticErr sps sel st kl hsel s0 sb f cr failed body acts res next built => rw [hr] at res; cases res
        | staticCb sps sel st kl hsel s0 s1 s cr done cbs n o rest split bad good acts res next built => rw [hr] at res; cases res
        | staticOk sps sel st kl hsel s0 s1 s d cr done good details acts res next built =>
          exact hout (.publish s.pm) (by rw [acts]; simp) trivial
      · rw [hlen] at g; simp at g
    · obtain ⟨n, pos, l, _, _, _, hx⟩ := cut_plan hcfg nilLogger .load (WReachable.sound hcfg h) hc
      rw [hx.res] at hr; cases hr
  refine ⟨fun d hd => ?_, ?_⟩
  · unfold callToEnd at hd
    cases hr : (planL nilLogger cfg env .load m.current m.next).plan.res with
    | err x => simp [hr] at hd
    | ok d => exact hno d hr
    | panic d => simp [hr] at hd
  · intro hreg
    cases hr : (planL nilLogger cfg env .load m.current m.next).plan.res with
    | err x => exact (C96_nil hcfg h hrun env .load hq hr).2.mpr hreg
    | ok d => exact absurd hr (hno d)
    | panic d =>
      exfalso
      obtain ⟨i, hi⟩ := hreg
      rcases (planL_rel nilLogger cfg env .load m.current m.next).2 with ⟨h1, _⟩ | hc
      · have e := plan_ext h1
        rw [e] at hr hi
        cases plan_view hcfg (env := env) (k := .load) (WReachable.sound hcfg h) with
        | escaped ext panics acts res next built => rw [acts] at hi; cases hi
        | listErr e dyn why acts res next built => rw [hr] at res; cases res
        | empty absDir entries dyn dir wl none acts res next built => rw [hr] at res; cases res
        | dynErr absDir entries dyn dir wl some s0 sb f cr failed body acts res next built => rw [hr] at res; cases res
        | dynCb absDir entries dyn dir wl some s0 s1 s cr done cbs n o rest split bad good acts res next built => rw [hr] at res; cases res
        | dynOk absDir entries dyn dir wl some s0 s1 s d cr done good details acts res next built => rw [hr] at res; cases res
        | staticMissing sps e st kl sel acts res next built => rw [hr] at res; cases res
        | staticErr sps sel st kl hsel s0 sb f cr failed body acts res next built => rw [hr] at res; cases res
        | staticCb sps sel st kl hsel s0 s1 s cr done cbs n o rest split bad good acts res next built => rw [hr] at res; cases res
        | staticOk sps sel st kl hsel s0 s1 s d cr done good details acts res next built => rw [hr] at res; cases res
      · obtain ⟨n, pos, l, _, _, _, hx⟩ := cut_plan hcfg nilLogger .load (WReachable.sound hcfg h) hc
        rw [hx.res] at hr; cases hr

end

namespace Demo

attribute [local instance] rt

/-- During the release, a logger that panics at everything. -/
def mute : FreeLogger := fun _ _ => true

/-- During the release, a logger that panics at nothing. -/
def fine : FreeLogger := fun _ _ => false

/-- The hypotheses of `C96_nil_static`, in a fresh program: a nil logger, and one plugin that is linked statically. A panic leaves `LoadPlugins`, no `OnFree` is called, and the plugin is not held any more. -/
example : cfgLinked.static ≠ none ∧ (Machine.init.running = none) ∧
    (callToEnd nilLogger mute cfgLinked env0 .load none 0 Machine.init.freeSt).escaped = true ∧ (callToEnd nilLogger mute cfgLinked env0 .load none 0 Machine.init.freeSt).st.called = [] ∧
    (callToEnd nilLogger mute cfgLinked env0 .load none 0 Machine.init.freeSt).st.refs 1 = 0 :=
  ⟨by simp [cfgLinked], rfl, by decide +kernel, by decide +kernel, by decide +kernel⟩

/-- The hypotheses of `C96_counts`, `C96_called` and `C96_quiet`: `app` is reloaded, the logger panics when its `OnInit` is announced, and not during the release. The new instance (4) is freed; `base` (2) has its old count. -/
example : WReachable cfg m1 [] ∧ m1.running = none ∧ error? (planL (panicsAt 2) cfg env2 (.reload none) m1.current m1.next).plan.res = some (.hookPanic "app".toList) ∧
    (callToEnd (panicsAt 2) fine cfg env2 (.reload none) m1.current m1.next m1.freeSt).escaped = false ∧
    (callToEnd (panicsAt 2) fine cfg env2 (.reload none) m1.current m1.next m1.freeSt).st.called = [4] ∧
    (callToEnd (panicsAt 2) fine cfg env2 (.reload none) m1.current m1.next m1.freeSt).st.refs 2 = m1.refs 2 :=
  ⟨C91_with_nil (m1_reachable.nil cfg_ok), by decide +kernel, by decide +kernel, by decide +kernel, by decide +kernel, by decide +kernel⟩

/-- The hypotheses of `C96_escaped`: the same with a logger that panics at everything during the release. A panic leaves `Reload`; `base`, which comes after `app`, keeps one reference too many. -/
example : (callToEnd (panicsAt 2) mute cfg env2 (.reload none) m1.current m1.next m1.freeSt).escaped = true ∧
    (callToEnd (panicsAt 2) mute cfg env2 (.reload none) m1.current m1.next m1.freeSt).st.called = [] ∧
    (callToEnd (panicsAt 2) mute cfg env2 (.reload none) m1.current m1.next m1.freeSt).st.refs 2 = m1.refs 2 + 1 :=
  ⟨by decide +kernel, by decide +kernel, by decide +kernel⟩

/-- `C96_nil_dynamic`: a nil logger without static linking. -/
example : error? (planL nilLogger cfg env2 (.reload none) m1.current m1.next).plan.res = some (.panicked none .user) ∧
    (callToEnd nilLogger mute cfg env2 (.reload none) m1.current m1.next m1.freeSt).escaped = false := ⟨by decide +kernel, by decide +kernel⟩

end Demo

end Hotswap
