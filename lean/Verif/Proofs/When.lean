import Verif.Proofs.KeptFirst
import Verif.Proofs.Exec
import Verif.Proofs.Calls
import Verif.Proofs.Mids
import Verif.Props.Hooks
import Verif.Spec.When

/-! `Plugin.When`: the invariant. -/

namespace Hotswap

variable [GoRuntime]

theorem mem_hooks_act {m : Machine} {a : Act} {x : Nat × Hook} (ha : hookOf a = some x) (h : a ∈ actsOf m.trace) : x ∈ m.hooks := by
  obtain ⟨t, ht⟩ := mem_actsOf.mp h
  unfold Machine.hooks Machine.events
  exact List.mem_filterMap.mpr ⟨.act a, List.mem_map.mpr ⟨_, ht, rfl⟩, ha⟩

theorem hooks_reloadable {m : Machine} {i : Nat} (h : (i, Hook.reloadable) ∈ m.hooks) : Act.callReloadable i ∈ actsOf m.trace := by
  unfold Machine.hooks Machine.events at h
  obtain ⟨e, h1, h2⟩ := List.mem_filterMap.mp h
  obtain ⟨⟨t, e'⟩, h3, rfl⟩ := List.mem_map.mp h1
  cases e' with
  | act a =>
    cases a <;> simp [evHook, hookOf] at h2
    subst h2
    exact mem_actsOf.mpr ⟨t, h3⟩
  | _ => simp [evHook] at h2

/-- The next action of a call. -/
theorem act_step {cfg : Config} {m m' : Machine} {r : Running} {a : Act} {rest : List Act} (hr : m.running = some r) (hp : r.phase = .idle) (ht : r.todo = a :: rest) (hs : m.step cfg .act = some m') :
    m'.trace = m.trace ++ [(m.now, .act a)] ∧ m'.now = m.now ∧ (∃ r', m'.running = some r' ∧ r'.kind = r.kind ∧ r'.todo = rest) ∧
      (∀ pm, a = .publish pm → m'.current = some pm) ∧ ((∀ pm, a ≠ .publish pm) → m'.current = m.current) := by
  have hv := step_view hs
  generalize hl : Label.act = l at hv
  cases hv with
  | act r' a' rest' run phase todo plain =>
    rw [hr] at run; cases run
    rw [ht] at todo; cases todo
    exact ⟨perform_trace, by cases a <;> rfl, ⟨_, rfl, rfl, rfl⟩, fun pm e => (by subst e; rfl), fun hn => by cases a <;> first | rfl | exact absurd rfl (hn _)⟩
  | release r' i rest' run phase todo =>
    rw [hr] at run; cases run
    rw [ht] at todo; cases todo
    exact ⟨rfl, rfl, ⟨_, rfl, rfl, rfl⟩, fun pm e => (by cases e), fun _ => rfl⟩
  | runSkip r' i run phase once => rw [hr] at run; cases run; rw [hp] at phase; cases phase
  | runBegin r' i run phase once => rw [hr] at run; cases run; rw [hp] at phase; cases phase
  | runEnd r' i run phase => rw [hr] at run; cases run; rw [hp] at phase; cases phase
  | _ => cases hl

/-- A step that is neither the beginning of a call nor an action of one. -/
structure Quietly (m m' : Machine) : Prop where
  trace : m'.trace = m.trace ∨ ∃ e, m'.trace = m.trace ++ [(m.now, e)] ∧ e.isCall = false ∧ ∀ a, e ≠ .act a
  now : m.now ≤ m'.now
  current : m'.current = m.current
  running : ∀ r', m'.running = some r' → ∃ r, m.running = some r ∧ r'.kind = r.kind ∧ r'.todo = r.todo

theorem Quietly.log {m m' : Machine} (e : Ev) (ht : m'.trace = m.trace ++ [(m.now, e)]) (h1 : e.isCall = false) (h2 : ∀ a, e ≠ .act a) (hn : m'.now = m.now) (hc : m'.current = m.current)
    (hr : ∀ r', m'.running = some r' → ∃ r, m.running = some r ∧ r'.kind = r.kind ∧ r'.todo = r.todo) : Quietly m m' :=
  ⟨.inr ⟨e, ht, h1, h2⟩, Nat.le_of_eq hn.symm, hc, hr⟩

theorem quietly_of {cfg : Config} {m m' : Machine} {l : Label} (hs : Step cfg m l m') (hc : ∀ k env, l = .call k env → refused cfg k = true)
    (ha : l = .act → ∀ r, m.running = some r → r.phase = .idle → r.todo = []) : Quietly m m' := by
  have same : ∀ r', m.running = some r' → ∃ r, m.running = some r ∧ r'.kind = r.kind ∧ r'.todo = r.todo := fun r h => ⟨r, h, rfl, rfl⟩
  cases hs with
  | refused k env h => exact .log .refused rfl rfl (by simp) rfl rfl same
  | call k env h run => rw [hc k env rfl] at h; cases h
  | act r a rest run phase todo plain => rw [ha rfl r run phase] at todo; cases todo
  | release r i rest run phase todo => rw [ha rfl r run phase] at todo; cases todo
  | runSkip r i run phase once => exact ⟨.inl rfl, Nat.le_refl _, rfl, by intro r' h; cases h; exact ⟨r, run, rfl, rfl⟩⟩
  | runBegin r i run phase once => exact .log (.freeBegin i) rfl rfl (by simp) rfl rfl (by intro r' h; cases h; exact ⟨r, run, rfl, rfl⟩)
  | runEnd r i run phase => exact .log (.freeEnd i) rfl rfl (by simp) rfl rfl (by intro r' h; cases h; exact ⟨r, run, rfl, rfl⟩)
  | ret r run todo phase => exact .log (.returned r.kind r.res) rfl rfl (by simp) rfl rfl (by intro r' h; cases h)
  | freeDec t x y frees phase i rest todo due => exact ⟨.inl rfl, Nat.le_refl _, rfl, same⟩
  | freeSkip t x y frees i phase once => exact ⟨.inl rfl, Nat.le_refl _, rfl, same⟩
  | freeBegin t x y frees i phase once => exact .log (.freeBegin i) rfl rfl (by simp) rfl rfl same
  | freeEnd t x y frees i phase => exact .log (.freeEnd i) rfl rfl (by simp) rfl rfl same
  | tick d => exact ⟨.inl rfl, Nat.le_add_right _ _, rfl, same⟩
  | read => exact .log (.observed _) rfl rfl (by simp) rfl rfl same
  | readCounter => exact .log (.counted _) rfl rfl (by simp) rfl rfl same

/-- The steps, one case each. -/
inductive TStep (cfg : Config) (s : TMachine) : TLabel → TMachine → Prop
  | clock (r : Running) (run : s.m.running = some r) (phase : r.phase = .idle) (unset : s.stamp = none) (kept : keeping r.todo = false) : TStep cfg s .clock { s with stamp := some s.m.now }
  | call (k : Kind) (env : Env) (m' : Machine) (h : refused cfg k = false) (hs : s.m.step cfg (.call k env) = some m') :
      TStep cfg s (.go (.call k env)) { s with m := m', stamp := none, building := fun _ => none }
  | act (r : Running) (a : Act) (rest : List Act) (m' : Machine) (s' : TMachine) (run : s.m.running = some r) (phase : r.phase = .idle) (todo : r.todo = a :: rest) (hs : s.m.step cfg .act = some m')
      (ha : s.act m' a = some s') : TStep cfg s (.go .act) s'
  | quiet (l : Label) (m' : Machine) (hs : s.m.step cfg l = some m') (hq : Quietly s.m m') : TStep cfg s (.go l) { s with m := m' }

theorem tstep_view {cfg : Config} {s s' : TMachine} {l : TLabel} (h : s.step cfg l = some s') : TStep cfg s l s' := by
  cases l with
  | clock =>
    unfold TMachine.step at h
    simp only at h
    cases hr : s.m.running with
    | none => rw [hr] at h; cases h
    | some r =>
      rw [hr] at h
      simp only at h
      split at h
      · rename_i hc; cases h; exact .clock r hr hc.1 hc.2.1 hc.2.2
      · cases h
  | go l =>
    unfold TMachine.step at h
    simp only at h
    cases hs : s.m.step cfg l with
    | none => rw [hs] at h; cases h
    | some m' =>
      rw [hs] at h
      simp only at h
      cases l with
      | call k env =>
        simp only at h
        split at h
        · rename_i hk
          cases h
          exact .quiet _ m' hs (quietly_of (step_view hs) (fun k' env' e => by cases e; exact hk) (fun e => by cases e))
        · rename_i hk
          cases h
          exact .call k env m' (by simpa using hk) hs
      | act =>
        simp only at h
        cases hr : s.m.running with
        | none => rw [hr] at h; cases h
        | some r =>
          rw [hr] at h
          simp only at h
          split at h
          · rename_i a rest hp ht
            exact .act r a rest m' s' hr hp ht hs h
          · rename_i hn
            cases h
            refine .quiet _ m' hs (quietly_of (step_view hs) (fun k' env' e => by cases e) (fun _ r' hr' hp => ?_))
            rw [hr] at hr'
            cases hr'
            cases ht : r.todo with
            | nil => rfl
            | cons a rest => exact absurd ht (hn a rest hp)
      | ret => cases h; exact .quiet _ m' hs (quietly_of (step_view hs) (fun _ _ e => by cases e) (fun e => by cases e))
      | free n => cases h; exact .quiet _ m' hs (quietly_of (step_view hs) (fun _ _ e => by cases e) (fun e => by cases e))
      | tick d => cases h; exact .quiet _ m' hs (quietly_of (step_view hs) (fun _ _ e => by cases e) (fun e => by cases e))
      | read => cases h; exact .quiet _ m' hs (quietly_of (step_view hs) (fun _ _ e => by cases e) (fun e => by cases e))
      | readCounter => cases h; exact .quiet _ m' hs (quietly_of (step_view hs) (fun _ _ e => by cases e) (fun e => by cases e))

theorem TStep.machine {cfg : Config} {s s' : TMachine} {l : TLabel} (h : TStep cfg s l s') : s'.m = s.m ∨ ∃ l', l = .go l' ∧ s.m.step cfg l' = some s'.m := by
  cases h with
  | clock r run phase unset kept => exact .inl rfl
  | call k env m' h hs => exact .inr ⟨_, rfl, hs⟩
  | act r a rest m' s' run phase todo hs ha =>
    refine .inr ⟨_, rfl, ?_⟩
    rw [hs]
    unfold TMachine.act at ha
    split at ha <;> first | cases ha; rfl | cases ha
  | quiet l m' hs hq => exact .inr ⟨_, rfl, hs⟩

theorem TReachable.machine {cfg : Config} {s : TMachine} (h : TReachable cfg s) : Reachable cfg s.m := by
  induction h with
  | init => exact .init
  | step l _ hs ih =>
    rcases (tstep_view hs).machine with h | ⟨l', _, h⟩
    · rw [h]; exact ih
    · exact .step l' ih h

/-- What a call publishes was kept or loaded by it. -/
theorem published_from {cfg : Config} (hcfg : cfg.OK) {m : Machine} (h : Reachable cfg m) {r : Running} {pm : Manager} {rest : List Act} (hr : m.running = some r) (ht : r.todo = .publish pm :: rest)
    {a b : History} {t0 : Nat} (htr : m.trace = a ++ (t0, .called r.kind) :: b) (hb : ∀ e ∈ b, e.2.isCall = false) : ∀ i ∈ pm.insts, Act.inc i ∈ actsOf b ∨ Act.callReloadable i ∈ actsOf b := by
  intro i hi
  obtain ⟨m0, env, t, b', hl⟩ := link h r hr
  obtain ⟨rfl, rfl, _, rfl⟩ := last_call_unique (htr.symm.trans hl.trace) hb hl.only
  obtain ⟨_, hsnd, _, _, hrest, _⟩ := (inv hcfg h).publishing hr ht
  have hv := view hcfg hl.reach env r.kind
  have hacts := hl.acts
  rw [ht] at hacts
  have hsh := hv.shape hl.accepted
  have hbuilt : pm = (plan cfg env r.kind m0.current m0.next).built ∧ (acquired (plan cfg env r.kind m0.current m0.next).acts).Perm (plan cfg env r.kind m0.current m0.next).built.insts ∧
      ∀ j, Act.register j ∈ (plan cfg env r.kind m0.current m0.next).acts → m0.next ≤ j := by
    have hmem : Act.publish pm ∈ (plan cfg env r.kind m0.current m0.next).acts := by rw [← hacts]; simp
    cases hsh with
    | failed pre rel acts res log stage acq nodup built origin =>
      exfalso
      rw [acts] at hmem
      rcases List.mem_append.mp hmem with hm | hm
      · have := stage _ hm; simp [Act.stage] at this
      · obtain ⟨j, _, e⟩ := List.mem_map.mp hm; cases e
    | noop acts d res built =>
      exfalso
      rw [acts] at hmem
      cases hk : r.kind <;> rw [hk] at hmem <;> simp [countActs] at hmem
    | ok pre acts d res log stage acq good origin =>
      have htail : ∀ x ∈ (if cfg.static.isSome then [] else spawnActs m0.current) ++ (.publish (plan cfg env r.kind m0.current m0.next).built :: countActs r.kind), x.stage = 7 := by
        intro x hx
        rcases List.mem_append.mp hx with hx | hx
        · split at hx
          · cases hx
          · cases hc : m0.current <;> rw [hc] at hx <;> simp [spawnActs] at hx
            subst hx; rfl
        · rcases List.mem_cons.mp hx with rfl | hx
          · rfl
          · cases hk : r.kind <;> rw [hk] at hx <;> simp [countActs] at hx
            subst hx; rfl
      refine ⟨?_, ?_, ?_⟩
      · rw [acts] at hmem
        rcases List.mem_append.mp hmem with hm | hm
        · have := stage _ hm; simp [Act.stage] at this
        · rcases List.mem_append.mp hm with hm | hm
          · split at hm
            · cases hm
            · cases hc : m0.current <;> rw [hc] at hm <;> simp [spawnActs] at hm
          · rcases List.mem_cons.mp hm with e | hm
            · cases e; rfl
            · cases hk : r.kind <;> rw [hk] at hm <;> simp [countActs] at hm
      · have : acquired (plan cfg env r.kind m0.current m0.next).acts = acquired pre := by
          rw [acts]
          unfold acquired
          rw [List.filterMap_append]
          have h0 : List.filterMap acquires ((if cfg.static.isSome then [] else spawnActs m0.current) ++ (.publish (plan cfg env r.kind m0.current m0.next).built :: countActs r.kind)) = [] := by
            rw [List.filterMap_eq_nil_iff]
            intro x hx
            have := htail x hx
            cases x <;> simp [Act.stage] at this <;> rfl
          rw [h0, List.append_nil]
        rw [this]
        exact acq
      · intro j hj
        rw [acts] at hj
        rcases List.mem_append.mp hj with hj | hj
        · exact (log.regs j hj).1
        · have := htail _ hj; simp [Act.stage] at this
  obtain ⟨e, hacq, hregs⟩ := hbuilt
  have hin : ∀ x, acquires x = some i → x ∈ (plan cfg env r.kind m0.current m0.next).acts → x ∈ actsOf b := by
    intro x hx hm
    rw [← hacts, hrest] at hm
    rcases List.mem_append.mp hm with hm | hm
    · exact hm
    · exfalso
      rcases List.mem_cons.mp hm with rfl | hm
      · cases hx
      · cases hk : r.kind <;> rw [hk] at hm <;> simp [countActs] at hm
        subst hm; cases hx
  rcases mem_acquired.mp (hacq.mem_iff.mpr (by rw [← e]; exact hi)) with hreg | hinc
  · right
    have hri := (readyInv hcfg h).todo r hr [] pm rest (by rw [ht]; rfl)
    obtain ⟨q, hq, rfl⟩ := List.mem_map.mp hi
    have hh := hri q (hsnd.ordered.mem_iff.mpr hq) .reloadable (by decide)
    simp only [List.filterMap_nil, List.append_nil] at hh
    have hc := hooks_reloadable hh
    rw [hl.trace] at hc
    unfold actsOf at hc
    rw [List.filterMap_append, List.filterMap_cons_none rfl] at hc
    rcases List.mem_append.mp hc with hc | hc
    · exfalso
      have h1 := (hookInv hcfg hl.reach).lt (q.inst, .reloadable) (List.mem_append_left _ (mem_hooks_act (a := .callReloadable q.inst) rfl hc))
      have h2 := hregs _ hreg
      change q.inst < m0.next at h1
      omega
    · exact hc
  · exact .inl (hin _ rfl hinc)

end Hotswap
