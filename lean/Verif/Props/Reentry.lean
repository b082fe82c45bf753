import Verif.Props.Schedule
import Verif.Props.Phases

/-!
# Plugin code and callbacks that use the swapper while a load runs: C72
-/

namespace Hotswap

section
variable [GoRuntime]

/-! ### Specification -/

/-- The action runs code of a plugin (its package initialisation or one of its functions) or a reload callback. -/
inductive RunsUserCode : Act → Prop
  | package (f : Str) : RunsUserCode (.openPlugin f)
  | reloadable (i : Nat) : RunsUserCode (.callReloadable i)
  | exports (i : Nat) : RunsUserCode (.callExport i)
  | imports (i : Nat) : RunsUserCode (.callImport i)
  | onLoad (i data : Nat) : RunsUserCode (.callOnLoad i data)
  | liveFuncs (i : Nat) : RunsUserCode (.callLiveFuncs i)
  | liveTypes (i : Nat) : RunsUserCode (.callLiveTypes i)
  | onInit (i mid : Nat) (v : Vault) : RunsUserCode (.callOnInit i mid v)
  | callback (n new : Nat) (old : Option Nat) : RunsUserCode (.callback n new old)

/-- A history in which the code started by the action `x` is still running: no further action of a call has happened, and no call has returned. -/
structure StillRunning (c : History) : Prop where
  acts : actsOf c = []
  returns : ∀ e ∈ c, ∀ k r, e.2 ≠ .returned k r

/-- What other goroutines, and the code itself, can do while the code has not returned: everything but the next step of the call it belongs to. -/
inductive WhileWaiting (cfg : Config) : Machine → Machine → Prop
  | refl (m : Machine) : WhileWaiting cfg m m
  | step {m m' m'' : Machine} {l : Label} : WhileWaiting cfg m m' → l ≠ .act → l ≠ .ret → m'.step cfg l = some m'' → WhileWaiting cfg m m''

/-! ### Proofs -/

omit [GoRuntime] in
theorem RunsUserCode.stage {x : Act} (h : RunsUserCode x) : x.stage ≤ 6 := by
  cases h <;> simp [Act.stage]

/-- When user code is started, the call has not yet published or counted anything. -/
theorem before_user_code {cfg : Config} (hcfg : cfg.OK) {m : Machine} (h : Reachable cfg m) {a b c : History} {t0 t1 : Nat} {k : Kind} {x : Act}
    (he : m.trace = a ++ (t0, .called k) :: (b ++ (t1, .act x) :: c)) (hb : ∀ e ∈ b, e.2.isCall = false) (hx : RunsUserCode x) :
    (∀ y ∈ actsOf b, y.stage ≤ 6) ∧ ∃ m0, Reachable cfg m0 ∧ m0.running = none ∧ m0.trace = a := by
  have := hist (cfg := cfg) (Q := fun tr e => e.2 = .act x → ∀ a t0 k b, tr = a ++ (t0, .called k) :: b → (∀ e ∈ b, e.2.isCall = false) →
      (∀ y ∈ actsOf b, y.stage ≤ 6) ∧ ∃ m0, Reachable cfg m0 ∧ m0.running = none ∧ m0.trace = a) ?_ h
    (a ++ (t0, .called k) :: b) (t1, .act x) c (by rw [he]; simp) rfl a t0 k b rfl hb
  · exact this
  · intro m e hr hcause hq a t0 k b htr hb
    simp only at hq
    subst hq
    cases hcause with
    | act r _ rest run phase todo =>
      obtain ⟨m0, env, t, b', hl⟩ := link hr r run
      have htr' := hl.trace
      rw [htr] at htr'
      obtain ⟨rfl, rfl, rfl, rfl⟩ := last_call_unique htr' hb hl.only
      have hp := C02_phases hcfg hl.reach env hl.accepted
      rw [← hl.acts, todo] at hp
      refine ⟨?_, m0, hl.reach, hl.idle, rfl⟩
      intro y hy
      have := (List.pairwise_append.mp hp).2.2 y hy x (by simp)
      exact Nat.le_trans this hx.stage

/-- The number of reloads that have been counted. -/
def counts (tr : History) : Nat := (actsOf tr).countP (fun a => match a with | .count => true | _ => false)

omit [GoRuntime] in
theorem counts_append (a b : History) : counts (a ++ b) = counts a + counts b := by
  unfold counts actsOf
  rw [List.filterMap_append, List.countP_append]

theorem counter_counts {cfg : Config} {m : Machine} (h : Reachable cfg m) : m.counter = counts m.trace := by
  refine Reachable.ind (P := fun m => m.counter = counts m.trace) rfl ?_ h
  intro m m' l _ ih hs
  have plain : ∀ {t : Nat} {e : Ev}, (∀ a, e ≠ .act a) → counts (m.trace ++ [(t, e)]) = counts m.trace := by
    intro t e he
    rw [counts_append]
    cases e with
    | act a => exact absurd rfl (he a)
    | _ => rfl
  have mine : ∀ {t : Nat} {a : Act}, counts (m.trace ++ [(t, .act a)]) = counts m.trace + match a with | .count => 1 | _ => 0 := by
    intro t a
    rw [counts_append]
    cases a <;> rfl
  cases hs with
  | act r a rest run phase todo plain' =>
    change (Machine.perform cfg (m.log (.act a)) a).counter = counts (Machine.perform cfg (m.log (.act a)) a).trace
    rw [perform_trace]
    change _ = counts (m.trace ++ [(m.now, .act a)])
    rw [mine, ← ih]
    cases a <;> rfl
  | release r i rest run phase todo => exact ih.trans (mine (t := m.now) (a := .release i)).symm
  | runSkip => exact ih
  | freeDec => exact ih
  | freeSkip => exact ih
  | tick => exact ih
  | _ => exact ih.trans (plain (by intro a h; cases h)).symm

omit [GoRuntime] in
theorem counts_stage {b : History} (h : ∀ y ∈ actsOf b, y.stage ≤ 6) : counts b = 0 := by
  unfold counts
  rw [List.countP_eq_zero]
  intro y hy
  have := h y hy
  cases y <;> simp [Act.stage] at this ⊢

omit [GoRuntime] in
theorem published_of_acts {b : History} (h : ∀ y ∈ actsOf b, y.stage ≤ 6) : ∀ pm, Act.publish pm ∉ actsOf b := by
  intro pm hm
  have := h _ hm
  simp [Act.stage] at this

/-- **C72.** Plugin code and reload callbacks that ask `Current()` while they run as a part of a load (or that read what another goroutine got from it) find the manager that was current when the load began, never the one being
loaded. -/
theorem C72_current_in_user_code {cfg : Config} (hcfg : cfg.OK) {m : Machine} (h : Reachable cfg m) {a b c d : History} {t0 t1 t2 : Nat} {k : Kind} {x : Act} {y : Option Nat}
    (he : m.trace = a ++ (t0, .called k) :: (b ++ (t1, .act x) :: (c ++ (t2, .observed y) :: d))) (hb : ∀ e ∈ b, e.2.isCall = false) (hx : RunsUserCode x) (hc : StillRunning c) :
    y = (lastPublished a).map (·.mid) := by
  have h1 := C38_current_is_last_published h (a := a ++ (t0, .called k) :: (b ++ (t1, .act x) :: c)) (t := t2) (x := y) (b := d) (by rw [he]; simp)
  rw [h1]
  congr 1
  have hs := (before_user_code hcfg h he hb hx).1
  refine lastPublished_frame (fun pm => by intro h; cases h) ?_
  intro pm hm
  unfold actsOf at hm
  rw [List.filterMap_append, List.filterMap_cons] at hm
  have hc' := hc.acts
  unfold actsOf at hc'
  rw [hc'] at hm
  rcases List.mem_append.mp hm with hm | hm
  · exact published_of_acts hs pm hm
  · simp at hm
    subst hm
    cases hx

/-- **C72.** `ReloadCounter()` does not yet count the reload it is asked in. -/
theorem C72_counter_in_user_code {cfg : Config} (hcfg : cfg.OK) {m : Machine} (h : Reachable cfg m) {a b c d : History} {t0 t1 t2 : Nat} {k : Kind} {x : Act} {n : Nat}
    (he : m.trace = a ++ (t0, .called k) :: (b ++ (t1, .act x) :: (c ++ (t2, .counted n) :: d))) (hb : ∀ e ∈ b, e.2.isCall = false) (hx : RunsUserCode x) (hc : StillRunning c) :
    n = reloadsOk a := by
  obtain ⟨hs, m0, hr0, hi0, rfl⟩ := before_user_code hcfg h he hb hx
  have h1 := hist (cfg := cfg) (Q := fun tr e => e.2 = .counted n → n = counts tr) ?_ h (m0.trace ++ (t0, .called k) :: (b ++ (t1, .act x) :: c)) (t2, .counted n) d (by rw [he]; simp) rfl
  · rw [← C13_counter_idle hcfg hr0 hi0, counter_counts hr0, h1]
    rw [show m0.trace ++ (t0, Ev.called k) :: (b ++ (t1, Ev.act x) :: c) = m0.trace ++ ([(t0, Ev.called k)] ++ (b ++ ([(t1, Ev.act x)] ++ c))) by simp]
    simp only [counts_append]
    have e1 : counts [(t0, Ev.called k)] = 0 := rfl
    have e2 : counts b = 0 := counts_stage hs
    have e3 : counts [(t1, Ev.act x)] = 0 := counts_stage (by
      intro y hy
      have : y = x := by simpa [actsOf] using hy
      rw [this]; exact hx.stage)
    have e4 : counts c = 0 := by unfold counts; rw [hc.acts]; rfl
    omega
  · intro m e hr hcause hq
    simp only at hq
    subst hq
    cases hcause with
    | counted => exact counter_counts hr

/-- **C72.** Plugin code, a callback or any other goroutine that calls `LoadPlugins` or `Reload` while a load runs waits until that load has ended; so a hook or callback that waits for such a call never returns: as long as it
does not, no such call can begin. (`Reload` in static linking mode returns at once, with an error.) -/
theorem C72_nested_call_deadlocks {cfg : Config} {m m' : Machine} (hr : m.running ≠ none) (hw : WhileWaiting cfg m m') {k : Kind} (hk : refused cfg k = false) (env : Env) :
    m'.running = m.running ∧ m'.step cfg (.call k env) = none := by
  have key : m'.running = m.running := by
    induction hw with
    | refl => rfl
    | @step m1 m2 l _ h1 h2 hs ih =>
      rw [← ih]
      cases step_view hs with
      | call k env _ run => rw [ih] at run; exact absurd run hr
      | act => exact absurd rfl h1
      | release => exact absurd rfl h1
      | runSkip => exact absurd rfl h1
      | runBegin => exact absurd rfl h1
      | runEnd => exact absurd rfl h1
      | ret => exact absurd rfl h2
      | _ => rfl
  refine ⟨key, ?_⟩
  unfold Machine.step
  simp only [hk, key]
  cases h : m.running with
  | none => exact absurd h hr
  | some r => rfl

/-- **C72.** … and it can begin as soon as the load has ended. -/
theorem C72_waits_no_longer {cfg : Config} {m : Machine} {r : Running} (hr : m.running = some r) (hd : r.todo = [] ∧ r.phase = .idle) (k : Kind) (env : Env) :
    ∃ m' m'', m.step cfg .ret = some m' ∧ m'.step cfg (.call k env) = some m'' := by
  obtain ⟨m', h1⟩ : ∃ m', m.step cfg .ret = some m' := by
    unfold Machine.step
    simp only [hr, hd.1, hd.2]
    exact ⟨_, rfl⟩
  have : m'.running = none := by
    cases step_view h1 with
    | ret => rfl
  obtain ⟨m'', h2⟩ := C38_call_enabled (cfg := cfg) this k env
  exact ⟨m', m'', h1, h2⟩

/-- Somebody asks for `Current()` while the first action of the first load runs. -/
theorem first_action {cfg : Config} {env : Env} {x : Act} {rest : List Act} (hp : (plan cfg env .load Machine.init.current Machine.init.next).acts = x :: rest) (hx : RunsUserCode x) :
    ∃ m, Reachable cfg m ∧ m.running ≠ none ∧ m.trace = [] ++ (0, .called .load) :: ([] ++ (0, .act x) :: ([] ++ (0, .observed none) :: [])) := by
  have h1 := Reachable.step _ (.init (cfg := cfg)) (Step.call (cfg := cfg) (m := Machine.init) .load env rfl rfl).enabled
  have h2 := Reachable.step _ h1 (Step.act (cfg := cfg) _ x rest rfl rfl hp (by intro i h; rw [h] at hx; cases hx)).enabled
  have h3 := Reachable.step _ h2 (Step.read (cfg := cfg)).enabled
  refine ⟨_, h3, ?_, ?_⟩
  · intro h; cases h
  · cases hx <;> rfl

end

namespace Demo

attribute [local instance] rt

/-- A run in which a plugin asks for `Current()` while it is loaded for the first time: the hypotheses are met. -/
example : ∃ m x, Reachable cfg m ∧ RunsUserCode x ∧ m.running ≠ none ∧
    m.trace = [] ++ (0, .called .load) :: ([] ++ (0, .act x) :: ([] ++ (0, .observed none) :: [])) ∧ StillRunning [] := by
  have key : (match (plan cfg env1 .load Machine.init.current Machine.init.next).acts with | .openPlugin _ :: _ => true | _ => false) = true := by decide +kernel
  generalize hp : (plan cfg env1 .load Machine.init.current Machine.init.next).acts = l at key
  cases l with
  | nil => cases key
  | cons x rest =>
    have hx : RunsUserCode x := by
      cases x <;> simp at key
      exact .package _
    obtain ⟨m, h1, h2, h3⟩ := first_action hp hx
    exact ⟨m, x, h1, hx, h2, h3, ⟨rfl, by simp⟩⟩

end Demo

end Hotswap
