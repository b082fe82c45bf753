import Verif.Proofs.Hist

/-! The machine executes plans: what happens between the beginning and the end of a call. -/

namespace Hotswap

variable [GoRuntime]

/-- The history `tr` ends in a call of kind `k`, made in the reachable state `m0`, that has performed the actions of its
plan except `todo` and is going to return `res`. -/
structure Link (cfg : Config) (tr : History) (k : Kind) (res : Result) (todo : List Act) (m0 : Machine) (env : Env) (t : Nat) (b : History) : Prop where
  reach : Reachable cfg m0
  idle : m0.running = none
  accepted : refused cfg k = false
  trace : tr = m0.trace ++ (t, .called k) :: b
  only : ∀ e ∈ b, e.2.isCall = false
  acts : actsOf b ++ todo = (plan cfg env k m0.current m0.next).acts
  res_eq : res = (plan cfg env k m0.current m0.next).res
  /-- every event since the call happened in a reachable state in which this call was running -/
  states : ∀ b1 e b2, b = b1 ++ e :: b2 → ∃ m' r', Reachable cfg m' ∧ m'.running = some r' ∧ r'.kind = k ∧ r'.res = res ∧
    m'.trace = m0.trace ++ (t, .called k) :: b1 ∧ m'.now = e.1 ∧ Cause cfg m' e.2

theorem link {cfg : Config} {m : Machine} (h : Reachable cfg m) :
    ∀ r, m.running = some r → ∃ m0 env t b, Link cfg m.trace r.kind r.res r.todo m0 env t b := by
  refine Reachable.ind (P := fun m => ∀ r, m.running = some r → ∃ m0 env t b, Link cfg m.trace r.kind r.res r.todo m0 env t b) ?_ ?_ h
  · intro r hr; cases hr
  intro m m' l hreach ih hs
  have plainEv : ∀ {e : Ev} {r : Running}, Cause cfg m e → e.isCall = false → (∀ a, e ≠ .act a) → m.running = some r →
      ∃ m0 env t b, Link cfg (m.trace ++ [(m.now, e)]) r.kind r.res r.todo m0 env t b := by
    intro e r hc h1 h2 hr
    obtain ⟨m0, env, t, b, hl⟩ := ih r hr
    refine ⟨m0, env, t, b ++ [(m.now, e)], hl.reach, hl.idle, hl.accepted, ?_, ?_, ?_, hl.res_eq, ?_⟩
    · rw [hl.trace]; simp
    · intro x hx
      rcases List.mem_append.mp hx with hx | hx
      · exact hl.only x hx
      · simp at hx; subst hx; exact h1
    · rw [← hl.acts]
      congr 1
      unfold actsOf
      rw [List.filterMap_append]
      cases e <;> first | exact absurd rfl (h2 _) | simp
    · intro b1 x b2 hb
      rcases snoc_split hb with ⟨b', _, hb'⟩ | ⟨_, rfl, rfl⟩
      · exact hl.states b1 x b' hb'
      · exact ⟨m, r, hreach, hr, rfl, rfl, hl.trace, rfl, hc⟩
  have actEv : ∀ {a : Act} {r : Running} {rest : List Act}, r.phase = .idle → m.running = some r → r.todo = a :: rest →
      ∃ m0 env t b, Link cfg (m.trace ++ [(m.now, .act a)]) r.kind r.res rest m0 env t b := by
    intro a r rest hp hr ht
    obtain ⟨m0, env, t, b, hl⟩ := ih r hr
    refine ⟨m0, env, t, b ++ [(m.now, .act a)], hl.reach, hl.idle, hl.accepted, ?_, ?_, ?_, hl.res_eq, ?_⟩
    · rw [hl.trace]; simp
    · intro x hx
      rcases List.mem_append.mp hx with hx | hx
      · exact hl.only x hx
      · simp at hx; subst hx; rfl
    · rw [← hl.acts, ht]
      simp [actsOf]
    · intro b1 x b2 hb
      rcases snoc_split hb with ⟨b', _, hb'⟩ | ⟨_, rfl, rfl⟩
      · exact hl.states b1 x b' hb'
      · exact ⟨m, r, hreach, hr, rfl, rfl, hl.trace, rfl, .act r a rest hr hp ht⟩
  intro r' hr'
  cases hs with
  | refused k env hr => exact plainEv (.refused k hr) rfl (by simp) hr'
  | call k env hr run =>
    cases hr'
    exact ⟨m, env, m.now, [], hreach, run, hr, rfl, by simp, by simp [actsOf], rfl, by simp⟩
  | act r a rest run phase todo plain =>
    cases hr'
    change ∃ m0 env t b, Link cfg (Machine.perform cfg (m.log (.act a)) a).trace r.kind r.res rest m0 env t b
    rw [perform_trace]
    exact actEv phase run todo
  | release r i rest run phase todo => cases hr'; exact actEv (r := r) phase run todo
  | runSkip r i run phase once => cases hr'; exact ih r run
  | runBegin r i run phase once => cases hr'; exact plainEv (r := r) (.begin i (mem_zs_run run phase)) rfl (by simp) run
  | runEnd r i run phase => cases hr'; exact plainEv (r := r) (.done i (mem_ins_run run phase)) rfl (by simp) run
  | ret r run todo phase => cases hr'
  | freeDec t x y frees phase i rest todo due => exact ih r' hr'
  | freeSkip t x y frees i phase once => exact ih r' hr'
  | freeBegin t x y frees i phase once => exact plainEv (.begin i (mem_zs_free (t := t) (by rw [frees]; simp) phase)) rfl (by simp) hr'
  | freeEnd t x y frees i phase => exact plainEv (.done i (mem_ins_free (t := t) (by rw [frees]; simp) phase)) rfl (by simp) hr'
  | tick d => exact ih r' hr'
  | read => exact plainEv .observed rfl (by simp) hr'
  | readCounter => exact plainEv .counted rfl (by simp) hr'

/-- Every call that returned performed exactly the actions of its plan, and returned its result. -/
theorem executed {cfg : Config} {m : Machine} (h : Reachable cfg m) :
    ∀ a t k res b, m.trace = a ++ (t, .returned k res) :: b → ∃ m0 env t0 c, Link cfg a k res [] m0 env t0 c := by
  intro a t k res b he
  have := hist (cfg := cfg) (Q := fun tr e => ∀ k res, e.2 = .returned k res → ∃ m0 env t0 c, Link cfg tr k res [] m0 env t0 c) ?_ h a _ b he k res rfl
  · exact this
  · intro m e hr hc k res hq
    simp only at hq
    subst hq
    cases hc with
    | returned r run phase todo =>
      have := link hr r run
      rw [todo] at this
      exact this

/-- The last call of a history is determined by it. -/
theorem last_call_unique {a a' b b' : History} {t t' : Nat} {k k' : Kind} (h : a ++ (t, Ev.called k) :: b = a' ++ (t', Ev.called k') :: b')
    (hb : ∀ e ∈ b, e.2.isCall = false) (hb' : ∀ e ∈ b', e.2.isCall = false) : a = a' ∧ t = t' ∧ k = k' ∧ b = b' := by
  rcases List.append_eq_append_iff.mp h with ⟨c, h1, h2⟩ | ⟨c, h1, h2⟩
  · cases c with
    | nil => simp at h1 h2; exact ⟨h1.symm, h2.1.1, h2.1.2, h2.2⟩
    | cons x c =>
      simp at h2
      have := hb (t', .called k') (by rw [h2.2]; simp)
      simp [Ev.isCall] at this
  · cases c with
    | nil => simp at h1 h2; exact ⟨h1, h2.1.1.symm, h2.1.2.symm, h2.2.symm⟩
    | cons x c =>
      simp at h2
      have := hb' (t, .called k) (by rw [h2.2]; simp)
      simp [Ev.isCall] at this

end Hotswap
