import Verif.Proofs.Sched
import Verif.Spec.Refs

/-! The references are held by managers; the program can always come to rest. -/

namespace Hotswap

variable [GoRuntime]

theorem heldInv {cfg : Config} (hcfg : cfg.OK) {m : Machine} (h : Reachable cfg m) :
    ∀ r, m.running = some r → (r.held ++ acquired r.todo).Nodup := by
  refine Reachable.ind (P := fun m => ∀ r, m.running = some r → (r.held ++ acquired r.todo).Nodup) ?_ ?_ h
  · intro r hr; cases hr
  intro m m' l hreach ih hs r' hr'
  cases hs with
  | call k env hr run =>
    cases hr'
    have hinv := inv hcfg hreach
    have hv := plan_view (env := env) (k := k) (old := m.current) (n0 := m.next) hcfg (fun om ho => (hinv.cur om ho).1)
    change ([] ++ acquired (plan cfg env k m.current m.next).acts).Nodup
    rw [List.nil_append]
    cases hv.shape hr with
    | failed pre rel acts res log stage acq nodup built origin =>
      rw [acts, acquired_append, acquired_eq_nil (l := rel.map Act.release) (fun a ha => by rw [stage_release rel a ha]; decide), List.append_nil]
      exact acq.symm.nodup nodup
    | ok pre acts d res log stage acq good origin =>
      rw [acts, acquired_append, acquired_eq_nil (l := _ ++ _) (fun a ha => by rw [stage_tail a ha]; decide), List.append_nil]
      exact acq.symm.nodup good.nodup
    | noop acts d res built =>
      rw [acts, acquired_eq_nil (fun a ha => by rw [stage_count a ha]; decide)]
      exact List.nodup_nil
  | act r a rest run phase todo plain =>
    cases hr'
    have h0 := ih r run
    rw [todo] at h0
    change (heldAfter r.held a ++ acquired rest).Nodup
    cases a with
    | register i => exact List.perm_middle.nodup h0
    | inc i => exact List.perm_middle.nodup h0
    | publish pm => exact (List.nodup_append.mp h0).2.1
    | release i => exact absurd rfl (plain i)
    | _ => exact h0
  | release r i rest run phase todo =>
    cases hr'
    have h0 := ih r run
    rw [todo] at h0
    exact (List.Sublist.append List.erase_sublist (List.Sublist.refl _)).nodup h0
  | runSkip r i run phase once => cases hr'; exact ih r run
  | runBegin r i run phase once => cases hr'; exact ih r run
  | runEnd r i run phase => cases hr'; exact ih r run
  | ret r run todo phase => cases hr'
  | _ => exact ih r' hr'

omit [GoRuntime] in
theorem count_todo {l : List FreeTask} (h : ∀ t ∈ l, t.todo.Nodup) (i : Nat) : (l.flatMap (·.todo)).count i = l.countP (fun t => t.todo.contains i) := by
  induction l with
  | nil => rfl
  | cons t r ih =>
    rw [List.flatMap_cons, List.count_append, ih (fun t ht => h t (List.mem_cons_of_mem _ ht)), List.countP_cons]
    have : t.todo.count i = if t.todo.contains i = true then 1 else 0 := by
      have := List.Nodup.count (h t (by simp)) (a := i)
      rw [this]
      by_cases hm : i ∈ t.todo <;> simp [hm]
    omega

/-- The reference count is the number of managers that hold the instance. -/
theorem refs_holders {cfg : Config} (hcfg : cfg.OK) {m : Machine} (h : Reachable cfg m) (i : Nat) : m.refs i = (m.holders i : Int) := by
  have hinv := inv hcfg h
  rw [hinv.core.refs_eq]
  congr 1
  unfold Machine.holds Machine.holders
  simp only [List.count_append]
  rw [count_todo (fun t ht => hinv.free_nodup ht)]
  have h1 : m.curHeld.count i = if m.pending.isNone && m.currentInsts.contains i then 1 else 0 := by
    unfold Machine.curHeld
    cases hp : m.pending with
    | some d => simp
    | none =>
      simp
      have hn : m.currentInsts.Nodup := by
        unfold Machine.currentInsts
        cases hc : m.current with
        | none => simp
        | some pm => exact (hinv.cur pm hc).1.nodup
      rw [hn.count]
  have h2 : (runHeld m.running).count i = if Running.holding m.running i then 1 else 0 := by
    unfold Running.holding runHeld
    cases hr : m.running with
    | none => simp
    | some r =>
      have := (List.nodup_append.mp (heldInv hcfg h r hr)).1
      simp [this.count]
  omega

/-! ### Progress -/

/-- Remaining work of a phase. -/
def Phase.weight : Phase → Nat
  | .idle => 0
  | .inside _ => 1
  | .zero _ => 2

/-- Remaining work of an action, including the goroutine it starts. -/
def Act.weight : Act → Nat
  | .spawnFree om => 3 + 3 * om.releaseList.length
  | _ => 3

def FreeTask.weight (t : FreeTask) : Nat := 3 * t.todo.length + t.phase.weight

def runWeight : Option Running → Nat
  | none => 0
  | some r => 1 + (r.todo.map Act.weight).sum + r.phase.weight

def Machine.weight (m : Machine) : Nat := runWeight m.running + (m.frees.map FreeTask.weight).sum

omit [GoRuntime] in
theorem weight_phase (c : Prop) [Decidable c] (i : Nat) : (if c then Phase.idle else Phase.zero i).weight ≤ 2 := by
  split <;> simp [Phase.weight]

theorem perform_weight {cfg : Config} {m : Machine} {a : Act} (h : ∀ i, a ≠ .release i) :
    ((m.perform cfg a).frees.map FreeTask.weight).sum + 3 = (m.frees.map FreeTask.weight).sum + a.weight := by
  cases a with
  | spawnFree om => simp [Machine.perform, Act.weight, FreeTask.weight, Phase.weight]; omega
  | release i => exact absurd rfl (h i)
  | _ => rfl

theorem getElem?_mid {α : Type} (x y : List α) (t : α) : (x ++ t :: y)[x.length]? = some t := by simp

theorem set_mid {α : Type} (x y : List α) (t t' : α) : (x ++ t :: y).set x.length t' = x ++ t' :: y := by simp

/-- The cases of `Step` are steps. -/
theorem Step.enabled {cfg : Config} {m m' : Machine} {l : Label} (h : Step cfg m l m') : m.step cfg l = some m' := by
  cases h with
  | refused k env h => simp [Machine.step, h]
  | call k env h run => simp only [Machine.step, h, run]; rfl
  | act r a rest run phase todo plain =>
    simp only [Machine.step, run, Machine.stepRunning, phase, todo]
  | release r i rest run phase todo => simp only [Machine.step, run, Machine.stepRunning, phase, todo]; rfl
  | runSkip r i run phase once => simp [Machine.step, run, Machine.stepRunning, phase, Machine.onceDo, once]
  | runBegin r i run phase once => simp only [Machine.step, run, Machine.stepRunning, phase, Machine.onceDo, once]; rfl
  | runEnd r i run phase => simp only [Machine.step, run, Machine.stepRunning, phase]; rfl
  | ret r run todo phase => simp [Machine.step, run, todo, phase]
  | freeDec t x y frees phase i rest todo due =>
    simp only [Machine.step, Machine.stepFree, frees, getElem?_mid, phase, todo, if_neg (Nat.not_lt.mpr due), set_mid]; rfl
  | freeSkip t x y frees i phase once =>
    simp only [Machine.step, Machine.stepFree, frees, getElem?_mid, phase, Machine.onceDo, once, set_mid]; rfl
  | freeBegin t x y frees i phase once =>
    simp only [Machine.step, Machine.stepFree, frees, getElem?_mid, phase, Machine.onceDo, once, set_mid]; rfl
  | freeEnd t x y frees i phase =>
    simp only [Machine.step, Machine.stepFree, frees, getElem?_mid, phase, set_mid]; rfl
  | tick d => rfl
  | read => rfl
  | readCounter => rfl

/-- The call that holds the lock can always take its next step, until it returns. -/
theorem run_step {cfg : Config} {m : Machine} {r : Running} (hr : m.running = some r) :
    ∃ l m', (l = Label.act ∨ l = Label.ret) ∧ Step cfg m l m' ∧ m'.weight < m.weight := by
  cases hp : r.phase with
  | zero i =>
    cases ho : m.once i with
    | true =>
      refine ⟨.act, _, .inl rfl, .runSkip r i hr hp ho, ?_⟩
      simp [Machine.weight, runWeight, hr, hp, Phase.weight]
    | false =>
      refine ⟨.act, _, .inl rfl, .runBegin r i hr hp ho, ?_⟩
      simp [Machine.weight, runWeight, hr, hp, Phase.weight, Machine.log]
  | inside i =>
    refine ⟨.act, _, .inl rfl, .runEnd r i hr hp, ?_⟩
    simp [Machine.weight, runWeight, hr, hp, Phase.weight, Machine.log]
  | idle =>
    cases ht : r.todo with
    | nil =>
      refine ⟨.ret, _, .inr rfl, .ret r hr ht hp, ?_⟩
      simp [Machine.weight, runWeight, hr, Machine.log]
      omega
    | cons a rest =>
      by_cases hrel : ∃ i, a = .release i
      · obtain ⟨i, rfl⟩ := hrel
        refine ⟨.act, _, .inl rfl, .release r i rest hr hp ht, ?_⟩
        have := weight_phase (m.refs i - 1 > 0) i
        simp only [Machine.weight, runWeight, hr, ht, List.map_cons, List.sum_cons, hp, Act.weight, Phase.weight] at this ⊢
        simp only [Machine.log]
        omega
      · have hrel : ∀ i, a ≠ .release i := fun i e => hrel ⟨i, e⟩
        refine ⟨.act, _, .inl rfl, .act r a rest hr hp ht hrel, ?_⟩
        have := perform_weight (cfg := cfg) (m := m.log (.act a)) hrel
        have e : (m.log (.act a)).frees = m.frees := rfl
        rw [e] at this
        have hw : 3 ≤ a.weight := by cases a <;> simp [Act.weight]
        simp only [Machine.weight, runWeight, hr, ht, List.map_cons, List.sum_cons, hp, Phase.weight] at this ⊢
        omega

/-- A free goroutine whose delay is over can always take its next step, until it is done. -/
theorem free_step {cfg : Config} {m : Machine} {t : FreeTask} (ht : t ∈ m.frees) (hb : t.todo ≠ [] ∨ t.phase ≠ .idle) (hd : t.due ≤ m.now) :
    ∃ n m', Step cfg m (.free n) m' ∧ m'.weight < m.weight := by
  obtain ⟨x, y, hf⟩ := List.append_of_mem ht
  cases hp : t.phase with
  | zero i =>
    cases ho : m.once i with
    | true =>
      refine ⟨_, _, .freeSkip t x y hf i hp ho, ?_⟩
      simp [Machine.weight, FreeTask.weight, hf, hp, Phase.weight]
    | false =>
      refine ⟨_, _, .freeBegin t x y hf i hp ho, ?_⟩
      simp [Machine.weight, FreeTask.weight, hf, hp, Phase.weight, Machine.log]
  | inside i =>
    refine ⟨_, _, .freeEnd t x y hf i hp, ?_⟩
    simp [Machine.weight, FreeTask.weight, hf, hp, Phase.weight, Machine.log]
  | idle =>
    cases htd : t.todo with
    | nil => exact absurd hb (by simp [htd, hp])
    | cons i rest =>
      refine ⟨_, _, .freeDec t x y hf hp i rest htd hd, ?_⟩
      have := weight_phase (m.refs i - 1 > 0) i
      simp only [Machine.weight, FreeTask.weight, hf, List.map_append, List.map_cons, List.sum_append, List.sum_cons, htd, hp, Phase.weight, List.length_cons] at this ⊢
      omega

theorem steps_append {cfg : Config} {m m' m'' : Machine} {a b : List Label} (h1 : m.steps cfg a = some m') (h2 : m'.steps cfg b = some m'') :
    m.steps cfg (a ++ b) = some m'' := by
  induction a generalizing m with
  | nil => simp [Machine.steps] at h1; subst h1; exact h2
  | cons l r ih =>
    unfold Machine.steps at h1
    rw [List.cons_append]
    unfold Machine.steps
    cases hs : m.step cfg l with
    | none => rw [hs] at h1; cases h1
    | some m1 => rw [hs] at h1; exact ih h1

theorem steps_one {cfg : Config} {m m' : Machine} {l : Label} (h : Step cfg m l m') : m.steps cfg [l] = some m' := by
  simp [Machine.steps, h.enabled]

theorem steps_reachable {cfg : Config} {m m' : Machine} {ls : List Label} (h : Reachable cfg m) (hs : m.steps cfg ls = some m') : Reachable cfg m' := by
  induction ls generalizing m with
  | nil => simp [Machine.steps] at hs; exact hs ▸ h
  | cons l r ih =>
    unfold Machine.steps at hs
    cases h1 : m.step cfg l with
    | none => rw [h1] at hs; cases hs
    | some m1 => rw [h1] at hs; exact ih (.step l h h1) hs

/-- Without any further call, the program can come to rest. -/
theorem drain {cfg : Config} (n : Nat) : ∀ m : Machine, m.weight = n → ∃ ls m', m.steps cfg ls = some m' ∧ m'.Quiet ∧ ∀ l ∈ ls, l.isCall = false := by
  induction n using Nat.strongRecOn with
  | _ n ih =>
    intro m hm
    have go : ∀ {ls m1}, m.steps cfg ls = some m1 → (∀ l ∈ ls, l.isCall = false) → m1.weight < m.weight →
        ∃ ls m', m.steps cfg ls = some m' ∧ m'.Quiet ∧ ∀ l ∈ ls, l.isCall = false := by
      intro ls m1 h1 h2 h3
      obtain ⟨ls', m', h4, h5, h6⟩ := ih _ (hm ▸ h3) m1 rfl
      refine ⟨ls ++ ls', m', steps_append h1 h4, h5, ?_⟩
      intro l hl
      rcases List.mem_append.mp hl with hl | hl
      · exact h2 l hl
      · exact h6 l hl
    cases hr : m.running with
    | some r =>
      obtain ⟨l, m1, hl, hs, hw⟩ := run_step (cfg := cfg) hr
      refine go (steps_one hs) ?_ hw
      intro x hx; simp at hx; subst hx
      rcases hl with rfl | rfl <;> rfl
    | none =>
      by_cases hq : ∀ t ∈ m.frees, t.todo = [] ∧ t.phase = .idle
      · exact ⟨[], m, rfl, ⟨hr, hq⟩, by simp⟩
      · obtain ⟨t, ht⟩ := Classical.not_forall.mp hq
        obtain ⟨ht, hb⟩ := Classical.not_imp.mp ht
        have hb' : t.todo ≠ [] ∨ t.phase ≠ .idle := by
          by_cases h1 : t.todo = []
          · exact .inr (fun h2 => hb ⟨h1, h2⟩)
          · exact .inl h1
        have htick : Step cfg m (.tick t.due) { m with now := m.now + t.due } := .tick t.due
        obtain ⟨k, m1, hs, hw⟩ := free_step (cfg := cfg) (m := { m with now := m.now + t.due }) (t := t) ht hb' (Nat.le_add_left _ _)
        refine go (steps_append (steps_one htick) (steps_one hs)) ?_ hw
        intro x hx; simp at hx
        rcases hx with rfl | rfl <;> rfl

/-- At rest, exactly the instances of the current manager are not freed. -/
theorem quiet_freed {cfg : Config} (hcfg : cfg.OK) (hst : cfg.static = none) {m : Machine} (h : Reachable cfg m) (hq : m.Quiet) {i : Nat} (hi : i ∈ m.regs) :
    if i ∈ m.currentInsts then m.begins.count i = 0 else m.begins.count i = 1 ∧ m.ends.count i = 1 := by
  have hinv := inv hcfg h
  obtain ⟨hr, hf⟩ := hq
  have h1 : m.frees.flatMap (·.todo) = [] := List.flatMap_eq_nil_iff.mpr (fun t ht => (hf t ht).1)
  have hh : m.holds = m.currentInsts := by
    unfold Machine.holds Machine.curHeld
    rw [h1, hinv.idle hr, hr, hinv.dyn (by rw [hst]; rfl)]
    simp [runHeld]
  have hz : m.zs = [] := by
    unfold Machine.zs
    rw [hr]
    simp [runZs]
    intro t ht; rw [(hf t ht).2]; rfl
  have hin : m.ins = [] := by
    unfold Machine.ins
    rw [hr]
    simp [runIns]
    intro t ht; rw [(hf t ht).2]; rfl
  have hb := hinv.core.begins_eq i
  have he := hinv.core.ends_eq i
  rw [hin] at he
  split
  · rename_i hc
    cases ho : m.once i with
    | false => rw [ho] at hb; exact hb
    | true => exact absurd (hh ▸ hc) (hinv.core.once_ok i ho).2
  · rename_i hc
    rcases hinv.core.done i hi (by rw [hh]; exact hc) with ho | ho
    · rw [ho] at hb
      simp at hb he
      omega
    · rw [hz] at ho; cases ho

end Hotswap
