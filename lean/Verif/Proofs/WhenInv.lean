import Verif.Proofs.When

/-! `Plugin.When`: the invariant and its preservation. -/

namespace Hotswap

variable [GoRuntime]

omit [GoRuntime] in
theorem LoadedAt.mono {tr : History} {i w : Nat} (h : LoadedAt tr i w) (x : History) : LoadedAt (tr ++ x) i w := by
  obtain ⟨a, t0, k, b, t1, c, rfl, h2, h3, h4, h5, h6⟩ := h
  exact ⟨a, t0, k, b, t1, c ++ x, by simp, h2, h3, h4, h5, h6⟩

omit [GoRuntime] in
theorem actsOf_snoc_act {b : History} {t : Nat} {a : Act} : actsOf (b ++ [(t, .act a)]) = actsOf b ++ [a] := by
  unfold actsOf; rw [List.filterMap_append]; rfl

omit [GoRuntime] in
theorem actsOf_snoc_other {b : History} {t : Nat} {e : Ev} (h : ∀ a, e ≠ .act a) : actsOf (b ++ [(t, e)]) = actsOf b := by
  unfold actsOf
  rw [List.filterMap_append]
  cases e <;> first | exact absurd rfl (h _) | simp

/-- The running call. -/
structure CallT (s : TMachine) (B : Nat → Option Nat) (r : Running) (a : History) (t0 : Nat) (b : History) : Prop where
  trace : s.m.trace = a ++ (t0, .called r.kind) :: b
  only : ∀ e ∈ b, e.2.isCall = false
  unset : s.stamp = none → ∀ x ∈ actsOf b, (∀ f, x ≠ .openPlugin f) ∧ ∀ i, x ≠ .callReloadable i
  begun : ∀ w, s.stamp = some w → t0 ≤ w ∧ w ≤ s.m.now
  opened : ∀ w, s.stamp = some w → ∀ t f, (t, Ev.act (.openPlugin f)) ∈ b → w ≤ t
  keptBefore : ∀ w, s.stamp = some w → ∀ t j, (t, Ev.act (.inc j)) ∈ b → t ≤ w
  kept : ∀ i, Act.inc i ∈ actsOf b → s.building i = B i ∧ (B i).isSome
  loaded : ∀ i, Act.callReloadable i ∈ actsOf b → s.building i = B i ∧ B i = s.stamp

/-- The invariant; `B` is the time at which each instance was loaded. -/
structure TInv (s : TMachine) (B : Nat → Option Nat) : Prop where
  cur : ∀ i ∈ s.m.currentInsts, s.shown i = B i ∧ (B i).isSome
  born : ∀ i w, B i = some w → LoadedAt s.m.trace i w
  same : ∀ x t i y t' j z, s.m.trace = x ++ (t, .act (.callReloadable i)) :: (y ++ (t', .act (.callReloadable j)) :: z) → (∀ e ∈ y, e.2.isCall = false) → B i = B j
  run : ∀ r, s.m.running = some r → ∃ a t0 b, CallT s B r a t0 b

theorem TInv.init : TInv .init (fun _ => none) :=
  ⟨(by intro i hi; cases hi), (by intro i w h; cases h), (by intro x t i y t' j z h; have := congrArg List.length h; simp [TMachine.init, Machine.init] at this),
    (by intro r h; cases h)⟩

omit [GoRuntime] in
theorem isAct_of_mem {b : History} {m : Nat} {e : Ev} {x : Nat × Ev} (h : x ∈ b ++ [(m, e)]) : x ∈ b ∨ x = (m, e) := by
  rcases List.mem_append.mp h with h | h
  · exact .inl h
  · exact .inr (by simpa using h)

/-- A step that adds at most an event that is no action and no call. -/
theorem TInv.quiet {s : TMachine} {B : Nat → Option Nat} (h : TInv s B) {m' : Machine} (hq : Quietly s.m m') : TInv { s with m := m' } B := by
  have hcur : m'.currentInsts = s.m.currentInsts := by unfold Machine.currentInsts; rw [hq.current]
  refine ⟨?_, ?_, ?_, ?_⟩
  · intro i hi; exact h.cur i (hcur ▸ hi)
  · intro i w hb
    change LoadedAt m'.trace i w
    rcases hq.trace with e | ⟨e, e', _⟩
    · rw [e]; exact h.born i w hb
    · rw [e']; exact (h.born i w hb).mono _
  · intro x t i y t' j z ht hy
    change m'.trace = _ at ht
    rcases hq.trace with e | ⟨e, e', _, hna⟩
    · exact h.same x t i y t' j z (e ▸ ht) hy
    · rw [e', show x ++ (t, Ev.act (.callReloadable i)) :: (y ++ (t', .act (.callReloadable j)) :: z) = (x ++ (t, Ev.act (.callReloadable i)) :: y) ++ (t', .act (.callReloadable j)) :: z by simp] at ht
      rcases snoc_split ht with ⟨z', rfl, hz⟩ | ⟨_, _, hz⟩
      · exact h.same x t i y t' j z' (by rw [hz]; simp) hy
      · exact absurd (congrArg Prod.snd hz).symm (hna _)
  · intro r' hr'
    obtain ⟨r, hr, hk, _⟩ := hq.running r' hr'
    obtain ⟨a, t0, b, hc⟩ := h.run r hr
    rcases hq.trace with e | ⟨e, e', hcall, hna⟩
    · exact ⟨a, t0, b, by change m'.trace = _; rw [e, hk]; exact hc.trace, hc.only, hc.unset, fun w hw => ⟨(hc.begun w hw).1, Nat.le_trans (hc.begun w hw).2 hq.now⟩, hc.opened, hc.keptBefore, hc.kept, hc.loaded⟩
    · have hacts : actsOf (b ++ [(s.m.now, e)]) = actsOf b := actsOf_snoc_other hna
      refine ⟨a, t0, b ++ [(s.m.now, e)], ?_, ?_, ?_, ?_, ?_, ?_, ?_, ?_⟩
      · change m'.trace = _; rw [e', hc.trace, hk]; simp
      · intro x hx
        rcases isAct_of_mem hx with hx | rfl
        · exact hc.only x hx
        · exact hcall
      · rw [hacts]; exact hc.unset
      · exact fun w hw => ⟨(hc.begun w hw).1, Nat.le_trans (hc.begun w hw).2 hq.now⟩
      · intro w hw t f hx
        rcases isAct_of_mem hx with hx | hx
        · exact hc.opened w hw t f hx
        · exact absurd (congrArg Prod.snd hx).symm (hna _)
      · intro w hw t f hx
        rcases isAct_of_mem hx with hx | hx
        · exact hc.keptBefore w hw t f hx
        · exact absurd (congrArg Prod.snd hx).symm (hna _)
      · rw [hacts]; exact hc.kept
      · rw [hacts]; exact hc.loaded

/-- The call reads the clock. -/
theorem TInv.clock {cfg : Config} {s : TMachine} {B : Nat → Option Nat} (h : TInv s B) (hreach : Reachable cfg s.m) {r : Running} (hr : s.m.running = some r) (hn : s.stamp = none) :
    TInv { s with stamp := some s.m.now } B := by
  refine ⟨h.cur, h.born, h.same, ?_⟩
  intro r' hr'
  change s.m.running = some r' at hr'
  rw [hr] at hr'
  cases hr'
  obtain ⟨a, t0, b, hc⟩ := h.run r hr
  have hle := (times hreach).2
  refine ⟨a, t0, b, hc.trace, hc.only, ?_, ?_, ?_, ?_, hc.kept, ?_⟩
  · intro hx; cases hx
  · intro w hw
    cases hw
    exact ⟨hle (t0, .called r.kind) (by rw [hc.trace]; simp), Nat.le_refl _⟩
  · intro w hw t f hx
    exact absurd rfl ((hc.unset hn _ (mem_actsOf.mpr ⟨t, hx⟩)).1 f)
  · intro w hw t j hx
    cases hw
    exact hle _ (by rw [hc.trace]; exact List.mem_append_right _ (List.mem_cons_of_mem _ hx))
  · intro i hi
    exact absurd rfl ((hc.unset hn _ hi).2 i)

/-- A call begins. -/
theorem TInv.call {s : TMachine} {B : Nat → Option Nat} (h : TInv s B) {m' : Machine} {k : Kind} (ht : m'.trace = s.m.trace ++ [(s.m.now, .called k)]) (hcur : m'.current = s.m.current)
    (hrun : ∀ r, m'.running = some r → r.kind = k) : TInv { s with m := m', stamp := none, building := fun _ => none } B := by
  have hci : m'.currentInsts = s.m.currentInsts := by unfold Machine.currentInsts; rw [hcur]
  refine ⟨?_, ?_, ?_, ?_⟩
  · intro i hi; exact h.cur i (hci ▸ hi)
  · intro i w hb
    change LoadedAt m'.trace i w
    rw [ht]; exact (h.born i w hb).mono _
  · intro x t i y t' j z he hy
    change m'.trace = _ at he
    rw [ht, show x ++ (t, Ev.act (.callReloadable i)) :: (y ++ (t', .act (.callReloadable j)) :: z) = (x ++ (t, Ev.act (.callReloadable i)) :: y) ++ (t', .act (.callReloadable j)) :: z by simp] at he
    rcases snoc_split he with ⟨z', rfl, hz⟩ | ⟨_, _, hz⟩
    · exact h.same x t i y t' j z' (by rw [hz]; simp) hy
    · cases hz
  · intro r hr
    refine ⟨s.m.trace, s.m.now, [], ?_, by simp, by simp [actsOf], (by intro w hw; cases hw), (by intro w hw; cases hw), (by intro w hw; cases hw), by simp [actsOf], by simp [actsOf]⟩
    change m'.trace = _
    rw [ht, hrun r hr]

omit [GoRuntime] in
theorem acts_since {a x b y : History} {t0 : Nat} {k : Kind} {e : Nat × Ev} (h : a ++ (t0, Ev.called k) :: b = x ++ e :: y) (he : e.2.isCall = false) (hy : ∀ e ∈ y, e.2.isCall = false) : e ∈ b := by
  rcases List.append_eq_append_iff.mp h with ⟨c, h1, h2⟩ | ⟨c, h1, h2⟩
  · cases c with
    | nil =>
      simp at h2
      rw [← h2.1] at he
      cases he
    | cons z c => simp at h2; rw [h2.2]; simp
  · cases c with
    | nil =>
      simp at h2
      rw [h2.1] at he
      cases he
    | cons z c =>
      simp at h2
      have := hy (t0, .called k) (by rw [h2.2]; simp)
      cases this

/-- An action other than the call of `Reloadable`. -/
theorem TInv.plain {s s' : TMachine} {B : Nat → Option Nat} (h : TInv s B) {r : Running} {a : Act} (hr : s.m.running = some r) (ht : s'.m.trace = s.m.trace ++ [(s.m.now, .act a)]) (hnow : s'.m.now = s.m.now)
    (hrun : ∀ r', s'.m.running = some r' → r'.kind = r.kind) (hstamp : s'.stamp = s.stamp) (hcur : ∀ i ∈ s'.m.currentInsts, s'.shown i = B i ∧ (B i).isSome) (hopen : ∀ f, a = .openPlugin f → s.stamp ≠ none)
    (hinc : ∀ i, a = .inc i → s.stamp = none ∧ s'.building i = B i ∧ (B i).isSome) (hb : ∀ j, s'.building j = s.building j ∨ s'.building j = B j) (hnot : ∀ i, a ≠ .callReloadable i) : TInv s' B := by
  refine ⟨hcur, ?_, ?_, ?_⟩
  · intro i w hb
    rw [ht]; exact (h.born i w hb).mono _
  · intro x t i y t' j z he hy
    rw [ht, show x ++ (t, Ev.act (.callReloadable i)) :: (y ++ (t', .act (.callReloadable j)) :: z) = (x ++ (t, Ev.act (.callReloadable i)) :: y) ++ (t', .act (.callReloadable j)) :: z by simp] at he
    rcases snoc_split he with ⟨z', rfl, hz⟩ | ⟨_, _, hz⟩
    · exact h.same x t i y t' j z' (by rw [hz]; simp) hy
    · cases hz; exact absurd rfl (hnot j)
  · intro r' hr'
    obtain ⟨a', t0, b, hc⟩ := h.run r hr
    have fix : ∀ j, s.building j = B j → s'.building j = B j := fun j hj => (hb j).elim (fun e => e.trans hj) id
    refine ⟨a', t0, b ++ [(s.m.now, .act a)], ?_, ?_, ?_, ?_, ?_, ?_, ?_, ?_⟩
    · rw [ht, hc.trace, hrun r' hr']; simp
    · intro x hx
      rcases isAct_of_mem hx with hx | rfl
      · exact hc.only x hx
      · rfl
    · intro hn x hx
      rw [hstamp] at hn
      rw [actsOf_snoc_act] at hx
      rcases List.mem_append.mp hx with hx | hx
      · exact hc.unset hn x hx
      · simp at hx; subst hx
        exact ⟨fun f e => hopen f e hn, hnot⟩
    · intro w hw; rw [hnow]; exact hc.begun w (hstamp ▸ hw)
    · intro w hw t f hx
      rw [hstamp] at hw
      rcases isAct_of_mem hx with hx | hx
      · exact hc.opened w hw t f hx
      · cases hx; exact (hc.begun w hw).2
    · intro w hw t f hx
      rw [hstamp] at hw
      rcases isAct_of_mem hx with hx | hx
      · exact hc.keptBefore w hw t f hx
      · cases hx; rw [(hinc f rfl).1] at hw; cases hw
    · intro i hi
      rw [actsOf_snoc_act] at hi
      rcases List.mem_append.mp hi with hi | hi
      · exact ⟨fix i (hc.kept i hi).1, (hc.kept i hi).2⟩
      · simp at hi; exact (hinc i hi.symm).2
    · intro i hi
      rw [actsOf_snoc_act] at hi
      rcases List.mem_append.mp hi with hi | hi
      · exact ⟨fix i (hc.loaded i hi).1, by rw [hstamp]; exact (hc.loaded i hi).2⟩
      · simp at hi; exact absurd hi.symm (hnot i)

omit [GoRuntime] in
theorem LoadedAt.asked {tr : History} {i w : Nat} (h : LoadedAt tr i w) : Act.callReloadable i ∈ actsOf tr := by
  obtain ⟨a, t0, k, b, t1, c, rfl, _⟩ := h
  exact mem_actsOf.mpr ⟨t1, by simp⟩

/-- `Reloadable` is called once on an instance. -/
theorem reloadable_once {cfg : Config} (hcfg : cfg.OK) {m m' : Machine} (h : Reachable cfg m') {i t : Nat} (ht : m'.trace = m.trace ++ [(t, .act (.callReloadable i))]) : Act.callReloadable i ∉ actsOf m.trace := by
  intro hi
  have hsub := hooksOf_sublist hcfg h i
  have h1 := mem_hooks_act (a := .callReloadable i) rfl hi
  have h2 : m'.hooksOf i = m.hooksOf i ++ [.reloadable] := by
    unfold Machine.hooksOf Machine.hooks Machine.events
    rw [ht]
    simp [evHook, hookOf]
  have h3 : Hook.reloadable ∈ m.hooksOf i := by
    unfold Machine.hooksOf
    simpa using h1
  rw [h2] at hsub
  have hnd : (m.hooksOf i ++ [Hook.reloadable]).Nodup := hsub.nodup (by decide)
  exact (List.nodup_append.mp hnd).2.2 _ h3 _ (by simp) rfl

/-- The call of `Reloadable`. -/
theorem TInv.load {cfg : Config} (hcfg : cfg.OK) {s s' : TMachine} {B : Nat → Option Nat} (h : TInv s B) (hreach : Reachable cfg s'.m) {r : Running} {i w : Nat} (hr : s.m.running = some r)
    (ht : s'.m.trace = s.m.trace ++ [(s.m.now, .act (.callReloadable i))]) (hnow : s'.m.now = s.m.now) (hrun : ∀ r', s'.m.running = some r' → r'.kind = r.kind) (hw : s.stamp = some w) (hstamp : s'.stamp = s.stamp)
    (hcur : s'.m.currentInsts = s.m.currentInsts) (hshown : s'.shown = s.shown) (hb : s'.building = upd s.building i (some w)) : TInv s' (upd B i (some w)) ∧ B i = none := by
  have hone := reloadable_once hcfg hreach ht
  have hnone : B i = none := by
    cases hB : B i with
    | none => rfl
    | some v => exact absurd (h.born i v hB).asked hone
  obtain ⟨a, t0, b, hc⟩ := h.run r hr
  have hi_b : Act.callReloadable i ∉ actsOf b := by
    intro hi
    obtain ⟨t, ht⟩ := mem_actsOf.mp hi
    exact hone (mem_actsOf.mpr ⟨t, by rw [hc.trace]; simp [ht]⟩)
  refine ⟨⟨?_, ?_, ?_, ?_⟩, hnone⟩
  · intro j hj
    rw [hcur] at hj
    have := h.cur j hj
    have hne : j ≠ i := by rintro rfl; rw [hnone] at this; simp at this
    rw [hshown]
    simpa [upd, hne] using this
  · intro j v hv
    rw [ht]
    by_cases hji : j = i
    · subst hji
      simp [upd] at hv
      subst hv
      refine ⟨a, t0, r.kind, b, s.m.now, [], by rw [hc.trace]; simp, hc.only, (hc.begun _ hw).1, (hc.begun _ hw).2, hc.opened _ hw, hc.keptBefore _ hw⟩
    · simp [upd, hji] at hv
      exact (h.born j v hv).mono _
  · intro x t j y t' l z he hy
    rw [ht, show x ++ (t, Ev.act (.callReloadable j)) :: (y ++ (t', .act (.callReloadable l)) :: z) = (x ++ (t, Ev.act (.callReloadable j)) :: y) ++ (t', .act (.callReloadable l)) :: z by simp] at he
    rcases snoc_split he with ⟨z', rfl, hz⟩ | ⟨_, hz, he⟩
    · have hj : j ≠ i := by
        rintro rfl; exact hone (mem_actsOf.mpr ⟨t, by rw [hz]; simp⟩)
      have hl : l ≠ i := by
        rintro rfl; exact hone (mem_actsOf.mpr ⟨t', by rw [hz]; simp⟩)
      simp [upd, hj, hl]
      exact h.same x t j y t' l z' (by rw [hz]; simp) hy
    · cases he
      have hj : j ≠ i := by
        rintro rfl; exact hone (mem_actsOf.mpr ⟨t, by rw [← hz]; simp⟩)
      have hmem := acts_since (hc.trace.symm.trans hz.symm) rfl hy
      have := (hc.loaded j (mem_actsOf.mpr ⟨_, hmem⟩)).2
      simp [upd, hj]
      rw [this, hw]
  · intro r' hr'
    refine ⟨a, t0, b ++ [(s.m.now, .act (.callReloadable i))], ?_, ?_, ?_, ?_, ?_, ?_, ?_, ?_⟩
    · rw [ht, hc.trace, hrun r' hr']; simp
    · intro x hx
      rcases isAct_of_mem hx with hx | rfl
      · exact hc.only x hx
      · rfl
    · intro hn; rw [hstamp, hw] at hn; cases hn
    · intro v hv; rw [hnow]; exact hc.begun v (hstamp ▸ hv)
    · intro v hv t f hx
      rcases isAct_of_mem hx with hx | hx
      · exact hc.opened v (hstamp ▸ hv) t f hx
      · cases hx
    · intro v hv t f hx
      rcases isAct_of_mem hx with hx | hx
      · exact hc.keptBefore v (hstamp ▸ hv) t f hx
      · cases hx
    · intro j hj
      rw [actsOf_snoc_act] at hj
      rcases List.mem_append.mp hj with hj | hj
      · have := hc.kept j hj
        have hne : j ≠ i := by rintro rfl; rw [hnone] at this; simp at this
        rw [hb]
        simpa [upd, hne] using this
      · simp at hj
    · intro j hj
      rw [actsOf_snoc_act] at hj
      rcases List.mem_append.mp hj with hj' | hj
      · have hne : j ≠ i := by rintro rfl; exact hi_b hj'
        rw [hb, hstamp]
        simpa [upd, hne] using hc.loaded j hj'
      · simp at hj
        subst hj
        rw [hb, hstamp, hw]
        simp [upd]

/-- What a call keeps was current. -/
theorem kept_current {cfg : Config} (hcfg : cfg.OK) {m : Machine} (h : Reachable cfg m) {r : Running} {i : Nat} {rest : List Act} (hr : m.running = some r) (ht : r.todo = .inc i :: rest) : i ∈ m.currentInsts := by
  cases (inv hcfg h).run r hr with
  | fail pre rel todo held idle res pending stage incs order =>
    rw [ht] at todo
    rcases cons_of_append todo.symm with ⟨pre', rfl, _⟩ | ⟨_, h⟩
    · exact incs i (by simp)
    · cases rel <;> simp at h
  | ok pre new todo held idle d res pending stage incs good built =>
    rw [ht] at todo
    rcases cons_of_append todo.symm with ⟨pre', rfl, _⟩ | ⟨_, h⟩
    · exact incs i (by simp)
    · exfalso
      have : ∀ x ∈ (if cfg.static.isSome then [] else spawnActs m.current) ++ (.publish new :: countActs r.kind), x ≠ Act.inc i := by
        intro x hx
        rcases List.mem_append.mp hx with hx | hx
        · split at hx
          · cases hx
          · cases hc : m.current <;> rw [hc] at hx <;> simp [spawnActs] at hx
            subst hx; simp
        · rcases List.mem_cons.mp hx with rfl | hx
          · simp
          · cases hk : r.kind <;> rw [hk] at hx <;> simp [countActs] at hx
            subst hx; simp
      exact this (.inc i) (by rw [h]; simp) rfl
  | spawned new dyn todo => rw [ht] at todo; simp at todo
  | last todo =>
    rw [ht] at todo
    revert todo
    cases r.kind <;> simp [countActs]

/-- One step; the times already known stay. -/
theorem TInv.step {cfg : Config} (hcfg : cfg.OK) {s s' : TMachine} {B : Nat → Option Nat} {l : TLabel} (h : TInv s B) (hreach : Reachable cfg s.m) (hs : s.step cfg l = some s') :
    ∃ B', TInv s' B' ∧ ∀ i w, B i = some w → B' i = some w := by
  have hv := tstep_view hs
  have hreach' : Reachable cfg s'.m := by
    rcases hv.machine with e | ⟨l', _, e⟩
    · rw [e]; exact hreach
    · exact .step l' hreach e
  have keep : ∀ i w, B i = some w → B i = some w := fun _ _ h => h
  cases hv with
  | clock r run phase unset kept => exact ⟨B, h.clock hreach run unset, keep⟩
  | quiet l m' hs' hq => exact ⟨B, h.quiet hq, keep⟩
  | call k env m' hk hs' =>
    have hv' := step_view hs'
    generalize hl : Label.call k env = lab at hv'
    cases hv' with
    | refused k' env' h' => cases hl; rw [hk] at h'; cases h'
    | call k' env' h' run =>
      cases hl
      exact ⟨B, h.call (k := k) rfl rfl (by intro r hr; cases hr; rfl), keep⟩
    | _ => cases hl
  | act r a rest m' s' run phase todo hs' ha =>
    obtain ⟨h1, h2, ⟨r', hr', hk, _⟩, h4, h5⟩ := act_step run phase todo hs'
    have hrun : ∀ r'', m'.running = some r'' → r''.kind = r.kind := by
      intro r'' hr''; rw [hr'] at hr''; cases hr''; exact hk
    have hsame : (∀ pm, a ≠ .publish pm) → ∀ i ∈ m'.currentInsts, s.shown i = B i ∧ (B i).isSome := by
      intro hn i hi
      have : m'.currentInsts = s.m.currentInsts := by unfold Machine.currentInsts; rw [h5 hn]
      exact h.cur i (this ▸ hi)
    have plain : ∀ (hs0 : s' = { s with m := m' }) (hn : ∀ pm, a ≠ .publish pm) (hi : ∀ i, a ≠ .inc i) (hc : ∀ i, a ≠ .callReloadable i) (ho : ∀ f, a = .openPlugin f → s.stamp ≠ none),
        ∃ B', TInv s' B' ∧ ∀ i w, B i = some w → B' i = some w := by
      intro hs0 hn hi hc ho
      subst hs0
      exact ⟨B, h.plain run h1 h2 hrun rfl (hsame hn) ho (fun i e => absurd e (hi i)) (fun j => .inl rfl) hc, keep⟩
    cases a with
    | inc i =>
      have hin := kept_current hcfg hreach run todo
      unfold TMachine.act at ha
      cases hw : s.stamp with
      | some w => rw [hw] at ha; cases ha
      | none =>
        rw [hw] at ha
        simp only at ha
        cases ha
        have hci := h.cur i hin
        refine ⟨B, h.plain run h1 h2 hrun hw.symm (hsame (by simp)) (by simp) ?_ ?_ (by simp), keep⟩
        · intro j e; cases e; exact ⟨hw, by simp [upd, hci.1], hci.2⟩
        · intro j
          by_cases hj : j = i
          · subst hj; right; simp [upd, hci.1]
          · left; simp [upd, hj]
    | callReloadable i =>
      unfold TMachine.act at ha
      cases hw : s.stamp with
      | none => rw [hw] at ha; cases ha
      | some w =>
        rw [hw] at ha
        simp only at ha
        cases ha
        have := h.load hcfg (s' := { s with m := m', stamp := some w, building := upd s.building i (some w) }) hreach' run h1 h2 hrun hw hw.symm (by change m'.currentInsts = _; unfold Machine.currentInsts; rw [h5 (by simp)]) rfl rfl
        refine ⟨_, this.1, ?_⟩
        intro j v hv
        have : j ≠ i := by rintro rfl; rw [this.2] at hv; cases hv
        simpa [upd, this] using hv
    | publish pm =>
      unfold TMachine.act at ha
      cases hw : s.stamp with
      | none => rw [hw] at ha; cases ha
      | some w =>
        rw [hw] at ha
        simp only at ha
        cases ha
        refine ⟨B, h.plain run h1 h2 hrun hw.symm ?_ (by simp) (by simp) (fun j => .inl rfl) (by simp), keep⟩
        obtain ⟨a', t0, b, hc⟩ := h.run r run
        intro i hi
        have hi' : i ∈ pm.insts := by
          change i ∈ m'.currentInsts at hi
          unfold Machine.currentInsts at hi
          rw [h4 pm rfl] at hi
          exact hi
        rcases published_from hcfg hreach run todo hc.trace hc.only i hi' with hm | hm
        · exact hc.kept i hm
        · have := hc.loaded i hm
          exact ⟨this.1, by rw [this.2, hw]; rfl⟩
    | openPlugin f =>
      unfold TMachine.act at ha
      cases hw : s.stamp with
      | none => rw [hw] at ha; cases ha
      | some w =>
        rw [hw] at ha
        simp only at ha
        cases ha
        exact plain (by rw [← hw]) (by simp) (by simp) (by simp) (by simp [hw])
    | release i =>
      unfold TMachine.act at ha
      simp only at ha
      cases ha
      exact plain rfl (by simp) (by simp) (by simp) (by simp)
    | count =>
      unfold TMachine.act at ha
      simp only at ha
      cases ha
      exact plain rfl (by simp) (by simp) (by simp) (by simp)
    | _ =>
      unfold TMachine.act at ha
      cases hw : s.stamp with
      | none => rw [hw] at ha; cases ha
      | some w =>
        rw [hw] at ha
        simp only at ha
        cases ha
        exact plain (by rw [← hw]) (by simp) (by simp) (by simp) (by simp)

theorem tinv {cfg : Config} (hcfg : cfg.OK) {s : TMachine} (h : TReachable cfg s) : ∃ B, TInv s B := by
  induction h with
  | init => exact ⟨_, TInv.init⟩
  | step l hr hs ih =>
    obtain ⟨B, hB⟩ := ih
    obtain ⟨B', hB', _⟩ := hB.step hcfg hr.machine hs
    exact ⟨B', hB'⟩

theorem TLater.reach {cfg : Config} {s s' : TMachine} (h : TReachable cfg s) (hl : TLater cfg s s') : TReachable cfg s' := by
  induction hl with
  | refl => exact h
  | step l _ hs ih => exact .step l ih hs

theorem tlater {cfg : Config} (hcfg : cfg.OK) {s s' : TMachine} (h : TReachable cfg s) (hl : TLater cfg s s') {B : Nat → Option Nat} (hB : TInv s B) : ∃ B', TInv s' B' ∧ ∀ i w, B i = some w → B' i = some w := by
  induction hl with
  | refl => exact ⟨B, hB, fun _ _ h => h⟩
  | step l hl hs ih =>
    obtain ⟨B1, hB1, e1⟩ := ih
    obtain ⟨B2, hB2, e2⟩ := hB1.step hcfg (TLater.reach h hl).machine hs
    exact ⟨B2, hB2, fun i w hw => e2 i w (e1 i w hw)⟩

end Hotswap
