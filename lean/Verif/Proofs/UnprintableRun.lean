import Verif.Proofs.Unprintable
import Verif.Props.Hostile

/-! A call from which a panic escapes, step by step. -/

namespace Hotswap

variable [GoRuntime]

/-- The machine with some actions of the running call performed, none of them a release. -/
theorem run_pre {cfg : Config} (pre : List Act) {m : Machine} {r : Running} {a : Act} {rest : List Act} (hrun : m.running = some r) (hp : r.phase = .idle)
    (ht : r.todo = pre ++ a :: rest) (hst : ∀ b ∈ pre, b.stage ≤ 6) :
    ∃ m2 r2, WLater cfg m m2 ∧ m2.running = some r2 ∧ r2.phase = .idle ∧ r2.todo = a :: rest ∧ m2.trace = m.trace ++ pre.map (fun b => (m.now, Ev.act b)) ∧ m2.now = m.now ∧
      m2.current = m.current ∧ m2.counter = m.counter ∧ m2.frees = m.frees ∧ m2.next = m.next := by
  induction pre generalizing m r with
  | nil => exact ⟨m, r, .refl, hrun, hp, ht, by simp, rfl, rfl, rfl, rfl, rfl⟩
  | cons b pre ih =>
    have hb := hst b (by simp)
    have key : ∃ m1, m.step cfg .act = some m1 ∧ m1.running = some { r with todo := pre ++ a :: rest, held := heldAfter r.held b } ∧ m1.trace = m.trace ++ [(m.now, Ev.act b)] ∧ m1.now = m.now ∧
        m1.current = m.current ∧ m1.counter = m.counter ∧ m1.frees = m.frees ∧ m1.next = m.next := by
      change ∃ m1, (match m.running with | none => none | some r => m.stepRunning cfg r) = some m1 ∧ _
      rw [hrun]
      unfold Machine.stepRunning
      simp only [hp, ht, List.cons_append]
      cases b with
      | release i => simp [Act.stage] at hb
      | spawnFree om => simp [Act.stage] at hb
      | publish pm => simp [Act.stage] at hb
      | count => simp [Act.stage] at hb
      | _ => exact ⟨_, rfl, rfl, rfl, rfl, rfl, rfl, rfl, rfl⟩
    obtain ⟨m1, hs, h1, h2, h3, h4, h5, h6, h7⟩ := key
    obtain ⟨m2, r2, k0, k1, k2, k3, k4, k5, k6, k7, k8, k9⟩ := ih (m := m1) h1 hp rfl (fun c hc => hst c (by simp [hc]))
    refine ⟨m2, r2, ?_, k1, k2, k3, ?_, k5.trans h3, k6.trans h4, k7.trans h5, k8.trans h6, k9.trans h7⟩
    · have hfirst : WLater cfg m m1 := .step (.go (.go .act)) .refl hs
      clear k1 k2 k3 k4 k5 k6 k7 k8 k9
      induction k0 with
      | refl => exact hfirst
      | step l _ hs' ih' => exact .step l ih' hs'
    · rw [k4, h2, h3]
      simp

theorem lastCallActs_acts (tr : History) (t : Nat) (l : List Act) : lastCallActs (tr ++ l.map (fun b => (t, Ev.act b))) = lastCallActs tr ++ l := by
  induction l generalizing tr with
  | nil => simp
  | cons a l ih =>
    have : tr ++ (a :: l).map (fun b => (t, Ev.act b)) = (tr ++ [(t, Ev.act a)]) ++ l.map (fun b => (t, Ev.act b)) := by simp
    rw [this, ih, lastCallActs_log]
    simp

/-- The panic escapes: the machine ends the call at the same place as if `runtime.Goexit` had been called. -/
theorem escape_run {cfg : Config} {m : Machine} (hr : m.running = none) {env : Env} {k : Kind} (hk : refused cfg k = false) {q : Plan}
    (hq : Escapes (plan cfg env k m.current m.next) q) :
    ∃ m2 m3, WLater cfg m m2 ∧ m2.wstep cfg .exitCall = some m3 ∧ m3.trace = m.trace ++ (m.now, Ev.called k) :: q.acts.map (fun a => (m.now, Ev.act a)) ∧
      m3.running = none ∧ m3.current = m.current ∧ m3.counter = m.counter ∧ m3.frees = m.frees ∧ m3.next = q.next ∧ (m2.wLoses .exitCall).Perm (acquired q.acts) := by
  obtain ⟨rel, hacts, hacq, hnd⟩ := hq.cleanup
  obtain ⟨pre, a, hpre, ha⟩ := hq.culprit
  have hst : ∀ b ∈ q.acts, b.stage ≤ 6 := by
    intro b hb
    cases b with
    | release i => exact absurd hb (hq.noRelease i)
    | spawnFree om => exact absurd hb (hq.noFree om)
    | count => exact absurd hb hq.uncounted
    | publish pm =>
      have := hq.unpublished
      unfold publishes at this
      rw [List.filterMap_eq_nil_iff] at this
      cases this _ hb
    | _ => simp [Act.stage]
  have hmay : a.mayExit = true := by cases ha <;> rfl
  -- the call begins
  have hcall : m.step cfg (.call k env) = some { m.log (.called k) with
          next := (plan cfg env k m.current m.next).next
          builts := (plan cfg env k m.current m.next).built :: m.builts
          running := some { kind := k, todo := (plan cfg env k m.current m.next).acts, res := (plan cfg env k m.current m.next).res, phase := .idle, held := [] } } := by
    change (if refused cfg k then _ else _) = _
    rw [hk, hr]
    rfl
  generalize hm1 : ({ m.log (.called k) with
          next := (plan cfg env k m.current m.next).next
          builts := (plan cfg env k m.current m.next).built :: m.builts
          running := some { kind := k, todo := (plan cfg env k m.current m.next).acts, res := (plan cfg env k m.current m.next).res, phase := .idle, held := [] } } : Machine) = m1 at hcall
  have hrun1 : m1.running = some { kind := k, todo := (plan cfg env k m.current m.next).acts, res := (plan cfg env k m.current m.next).res, phase := .idle, held := [] } := by rw [← hm1]
  have htr1 : m1.trace = m.trace ++ [(m.now, Ev.called k)] := by rw [← hm1]; rfl
  have hnow1 : m1.now = m.now := by rw [← hm1]; rfl
  have hcur1 : m1.current = m.current := by rw [← hm1]; rfl
  have hcnt1 : m1.counter = m.counter := by rw [← hm1]; rfl
  have hfr1 : m1.frees = m.frees := by rw [← hm1]; rfl
  have hnx1 : m1.next = q.next := by rw [← hm1, hq.next]
  obtain ⟨m2, r2, k0, k1, k2, k3, k4, k5, k6, k7, k8, k9⟩ := run_pre (cfg := cfg) pre (m := m1) (a := a) (rest := rel.map Act.release) hrun1 rfl
    (by simp only; rw [hacts, hpre]; simp) (fun b hb => hst b (by rw [hpre]; simp [hb]))
  have hlater : WLater cfg m m2 := by
    have hfirst : WLater cfg m m1 := .step (.go (.go (.call k env))) .refl hcall
    clear k1 k2 k3 k4 k5 k6 k7 k8 k9
    induction k0 with
    | refl => exact hfirst
    | step l _ hs' ih' => exact .step l ih' hs'
  have hexit : m2.wstep cfg .exitCall = some ((m2.log (.act a)).drop r2) := by
    change m2.exitCall = _
    unfold Machine.exitCall
    rw [k1]
    simp only [k2, k3, hmay, if_true]
  refine ⟨m2, _, hlater, hexit, ?_, rfl, k6.trans hcur1, k7.trans hcnt1, k8.trans hfr1, k9.trans hnx1, ?_⟩
  · change m2.trace ++ [(m2.now, Ev.act a)] = _
    rw [k4, k5, htr1, hnow1, hpre]
    simp
  · change (owed (lastCallActs m2.trace)).Perm _
    rw [k4, htr1, lastCallActs_acts, lastCallActs_log]
    simp only [List.nil_append]
    rw [owed_acquired _ (fun b hb => hst b (by rw [hpre]; simp [hb])), hpre]
    have : acquired (pre ++ [a]) = acquired pre := by
      unfold acquired
      rw [List.filterMap_append]
      have : acquires a = none := by cases ha <;> rfl
      simp [List.filterMap_cons, this]
    rw [this]
    exact List.reverse_perm _

end Hotswap
