import Verif.Proofs.Drain
import Verif.Proofs.FreeOrder
import Verif.Proofs.NilHist
import Verif.Spec.Fair

/-! Fair executions: every call returns, every free goroutine finishes, every superseded instance is freed. -/

namespace Hotswap

variable [GoRuntime]

theorem Execution.reachable {cfg : Config} (e : Execution cfg) : ∀ n, Reachable cfg (e.at_ n)
  | 0 => e.start
  | n + 1 => .step _ (e.reachable n) (e.next n)

theorem Execution.view {cfg : Config} (e : Execution cfg) (n : Nat) : Step cfg (e.at_ n) (e.lab n) (e.at_ (n + 1)) := step_view (e.next n)

/-- What every step preserves holds from then on. -/
theorem Execution.keeps {cfg : Config} (e : Execution cfg) {P : Machine → Prop}
    (hP : ∀ m m' l, Reachable cfg m → P m → Step cfg m l m' → P m') {n : Nat} (h : P (e.at_ n)) : ∀ k, n ≤ k → P (e.at_ k) := by
  intro k hk
  induction hk with
  | refl => exact h
  | @step k _ ih => exact hP _ _ _ (e.reachable k) ih (e.view k)

/-- Either a step with a label in `S` is taken from `n` on, or there is a first one. -/
theorem Execution.first {cfg : Config} (e : Execution cfg) (S : Label → Prop) {n : Nat} (h : ∃ k, n ≤ k ∧ S (e.lab k)) :
    ∃ k, n ≤ k ∧ S (e.lab k) ∧ ∀ j, n ≤ j → j < k → ¬ S (e.lab j) := by
  obtain ⟨k, hk, hS⟩ := h
  induction k using Nat.strongRecOn with
  | _ k ih =>
    by_cases hf : ∃ j, n ≤ j ∧ j < k ∧ S (e.lab j)
    · obtain ⟨j, h1, h2, h3⟩ := hf; exact ih j h2 h1 h3
    · exact ⟨k, hk, hS, fun j h1 h2 h3 => hf ⟨j, h1, h2, h3⟩⟩

/-! ### The running call -/

/-- Only its own steps change the running call, and they lessen its work. -/
theorem Step.running {cfg : Config} {m m' : Machine} {l : Label} (h : Step cfg m l m') {r : Running} (hr : m.running = some r) :
    (l ≠ .act ∧ l ≠ .ret ∧ m'.running = some r) ∨ ((l = .act ∨ l = .ret) ∧ runWeight m'.running < runWeight m.running) := by
  cases h with
  | call k env h run => rw [hr] at run; cases run
  | act r' a rest run phase todo plain =>
    refine .inr ⟨.inl rfl, ?_⟩
    rw [run]
    have : 3 ≤ a.weight := by cases a <;> simp [Act.weight]
    simp only [runWeight, todo, List.map_cons, List.sum_cons]
    omega
  | release r' i rest run phase todo =>
    refine .inr ⟨.inl rfl, ?_⟩
    rw [run]
    have := weight_phase (m.refs i - 1 > 0) i
    simp only [runWeight, todo, List.map_cons, List.sum_cons, phase, Phase.weight, Act.weight] at this ⊢
    omega
  | runSkip r' i run phase once => exact .inr ⟨.inl rfl, by rw [run]; simp [runWeight, phase, Phase.weight]⟩
  | runBegin r' i run phase once => exact .inr ⟨.inl rfl, by rw [run]; simp [runWeight, phase, Phase.weight]⟩
  | runEnd r' i run phase => exact .inr ⟨.inl rfl, by rw [run]; simp [runWeight, phase, Phase.weight]⟩
  | ret r' run todo phase => exact .inr ⟨.inr rfl, by rw [run]; simp only [runWeight]; omega⟩
  | _ => exact .inl ⟨by simp, by simp, hr⟩

/-- The running call has a step of its own; which kind depends on nothing else. -/
theorem run_enabled {cfg : Config} {r : Running} : (∀ m : Machine, m.running = some r → (m.step cfg .act).isSome = true) ∨
    (∀ m : Machine, m.running = some r → (m.step cfg .ret).isSome = true) := by
  by_cases hd : r.todo = [] ∧ r.phase = .idle
  · right; intro m hr
    rw [(Step.ret r hr hd.1 hd.2).enabled]; rfl
  · left; intro m hr
    obtain ⟨l, m', hl, hs, _⟩ := run_step (cfg := cfg) hr
    rcases hl with rfl | rfl
    · rw [hs.enabled]; rfl
    · cases hs with
      | ret r' run todo phase => rw [hr] at run; cases run; exact absurd ⟨todo, phase⟩ hd

theorem Execution.run_moves {cfg : Config} {e : Execution cfg} (hf : e.Fair) {n : Nat} {r : Running} (hr : (e.at_ n).running = some r) :
    ∃ k, n ≤ k ∧ runWeight (e.at_ k).running < runWeight (e.at_ n).running := by
  have stay : ∀ k, n ≤ k → (∀ j, n ≤ j → j < k → ¬ (e.lab j = .act ∨ e.lab j = .ret)) → (e.at_ k).running = some r := by
    intro k hk
    induction hk with
    | refl => exact fun _ => hr
    | @step k hk ih =>
      intro h
      have h0 := ih (fun j h1 h2 => h j h1 (by omega))
      rcases (e.view k).running h0 with ⟨_, _, h1⟩ | ⟨h1, _⟩
      · exact h1
      · exact absurd h1 (h k hk (by omega))
  have ex : ∃ k, n ≤ k ∧ (e.lab k = .act ∨ e.lab k = .ret) := by
    by_contra hno
    have hno' : ∀ j, n ≤ j → ¬ (e.lab j = .act ∨ e.lab j = .ret) := fun j h1 h2 => hno ⟨j, h1, h2⟩
    have hst : ∀ k, n ≤ k → (e.at_ k).running = some r := fun k hk => stay k hk (fun j h1 _ => hno' j h1)
    rcases run_enabled (cfg := cfg) (r := r) with h | h
    · obtain ⟨k, hk, hl⟩ := hf.act n (fun k hk => h _ (hst k hk))
      exact hno' k hk (.inl hl)
    · obtain ⟨k, hk, hl⟩ := hf.ret n (fun k hk => h _ (hst k hk))
      exact hno' k hk (.inr hl)
  obtain ⟨k, hk, hl, hfirst⟩ := e.first (fun l => l = .act ∨ l = .ret) ex
  have hk' := stay k hk hfirst
  refine ⟨k + 1, by omega, ?_⟩
  rcases (e.view k).running hk' with ⟨h1, h2, _⟩ | ⟨_, h1⟩
  · rcases hl with hl | hl
    · exact absurd hl h1
    · exact absurd hl h2
  · rw [hr, ← hk']; exact h1

/-- Every call returns. -/
theorem Execution.returns {cfg : Config} {e : Execution cfg} (hf : e.Fair) : ∀ n, ∃ k, n ≤ k ∧ (e.at_ k).running = none := by
  have go : ∀ w n, runWeight (e.at_ n).running = w → ∃ k, n ≤ k ∧ (e.at_ k).running = none := by
    intro w
    induction w using Nat.strongRecOn with
    | _ w ih =>
      intro n hw
      cases hr : (e.at_ n).running with
      | none => exact ⟨n, Nat.le_refl _, hr⟩
      | some r =>
        obtain ⟨k, hk, hlt⟩ := Execution.run_moves hf hr
        obtain ⟨k', hk', h⟩ := ih _ (hw ▸ hlt) k rfl
        exact ⟨k', by omega, h⟩
  exact fun n => go _ n rfl

/-! ### The free goroutines -/

omit [GoRuntime] in
theorem get_mid_ne {α : Type} {x y : List α} {t t' : α} {n : Nat} (h : n ≠ x.length) : (x ++ t' :: y)[n]? = (x ++ t :: y)[n]? := by
  rcases Nat.lt_or_ge n x.length with hn | hn
  · rw [List.getElem?_append_left hn, List.getElem?_append_left hn]
  · rw [List.getElem?_append_right hn, List.getElem?_append_right hn]
    obtain ⟨d, hd⟩ : ∃ d, n - x.length = d + 1 := ⟨n - x.length - 1, by omega⟩
    rw [hd]; simp

/-- Only its own steps change a free goroutine, and they lessen its work. -/
theorem Step.task {cfg : Config} {m m' : Machine} {l : Label} (h : Step cfg m l m') {n : Nat} {t : FreeTask} (ht : m.frees[n]? = some t) :
    (l ≠ .free n ∧ m'.frees[n]? = some t) ∨
    (l = .free n ∧ ∃ t', m'.frees[n]? = some t' ∧ t'.due = t.due ∧ t'.weight < t.weight) := by
  have mid : ∀ (x y : List FreeTask) (t0 t' : FreeTask), m.frees = x ++ t0 :: y → t'.due = t0.due → t'.weight < t0.weight →
      (Label.free x.length ≠ .free n ∧ (x ++ t' :: y)[n]? = some t) ∨
      (Label.free x.length = .free n ∧ ∃ t'', (x ++ t' :: y)[n]? = some t'' ∧ t''.due = t.due ∧ t''.weight < t.weight) := by
    intro x y t0 t' he hd hw
    by_cases hn : n = x.length
    · subst hn
      rw [he, getElem?_mid] at ht
      cases ht
      exact .inr ⟨rfl, t', getElem?_mid .., hd, hw⟩
    · refine .inl ⟨fun e => hn (by cases e; rfl), ?_⟩
      rw [get_mid_ne (t := t0) hn, ← he]; exact ht
  cases h with
  | act r a rest run phase todo plain =>
    refine .inl ⟨by simp, ?_⟩
    cases a with
    | spawnFree om =>
      change (m.frees ++ [_])[n]? = some t
      rw [List.getElem?_append_left (List.getElem?_eq_some_iff.mp ht).1]; exact ht
    | _ => exact ht
  | freeDec t0 x y frees phase i rest todo due =>
    refine mid x y t0 _ frees rfl ?_
    have := weight_phase (m.refs i - 1 > 0) i
    simp only [FreeTask.weight, todo, phase, Phase.weight, List.length_cons] at this ⊢
    omega
  | freeSkip t0 x y frees i phase once => exact mid x y t0 _ frees rfl (by simp [FreeTask.weight, phase, Phase.weight])
  | freeBegin t0 x y frees i phase once => exact mid x y t0 _ frees rfl (by simp [FreeTask.weight, phase, Phase.weight])
  | freeEnd t0 x y frees i phase => exact mid x y t0 _ frees rfl (by simp [FreeTask.weight, phase, Phase.weight])
  | _ => exact .inl ⟨by simp, ht⟩

theorem Step.clock {cfg : Config} {m m' : Machine} {l : Label} (h : Step cfg m l m') : m.now ≤ m'.now := by
  cases h with
  | act r a rest run phase todo plain => cases a <;> exact Nat.le_refl _
  | tick d => exact Nat.le_add_right ..
  | _ => exact Nat.le_refl _

omit [GoRuntime] in
/-- A goroutine that is not done. -/
theorem FreeTask.busy {t : FreeTask} (h : t.weight ≠ 0) : t.todo ≠ [] ∨ t.phase ≠ .idle := by
  by_cases h1 : t.todo = []
  · right; intro h2; exact h (by simp [FreeTask.weight, h1, h2, Phase.weight])
  · exact .inl h1

omit [GoRuntime] in
theorem FreeTask.done {t : FreeTask} (h : t.weight = 0) : t.todo = [] ∧ t.phase = .idle := by
  unfold FreeTask.weight at h
  constructor
  · exact List.length_eq_zero_iff.mp (by omega)
  · cases hp : t.phase with
    | idle => rfl
    | _ => rw [hp] at h; simp [Phase.weight] at h

theorem task_enabled {cfg : Config} {m : Machine} {n : Nat} {t : FreeTask} (ht : m.frees[n]? = some t) (hw : t.weight ≠ 0) (hd : t.due ≤ m.now) :
    (m.step cfg (.free n)).isSome = true := by
  obtain ⟨x, y, hf, rfl, _⟩ := split_at ht
  cases hp : t.phase with
  | zero i =>
    cases ho : m.once i with
    | true => rw [(Step.freeSkip t x y hf i hp ho).enabled]; rfl
    | false => rw [(Step.freeBegin t x y hf i hp ho).enabled]; rfl
  | inside i => rw [(Step.freeEnd t x y hf i hp).enabled]; rfl
  | idle =>
    cases htd : t.todo with
    | nil => exact absurd (FreeTask.busy hw) (by simp [htd, hp])
    | cons i rest => rw [(Step.freeDec t x y hf hp i rest htd hd).enabled]; rfl

theorem Execution.task_moves {cfg : Config} {e : Execution cfg} (hf : e.Fair) {n j : Nat} {t : FreeTask} (ht : (e.at_ n).frees[j]? = some t)
    (hw : t.weight ≠ 0) : ∃ k t', n ≤ k ∧ (e.at_ k).frees[j]? = some t' ∧ t'.weight < t.weight := by
  have stay : ∀ k, n ≤ k → (∀ i, n ≤ i → i < k → ¬ e.lab i = .free j) → (e.at_ k).frees[j]? = some t := by
    intro k hk
    induction hk with
    | refl => exact fun _ => ht
    | @step k hk ih =>
      intro h
      have h0 := ih (fun i h1 h2 => h i h1 (by omega))
      rcases (e.view k).task h0 with ⟨_, h1⟩ | ⟨h1, _⟩
      · exact h1
      · exact absurd h1 (h k hk (by omega))
  have ex : ∃ k, n ≤ k ∧ e.lab k = .free j := by
    by_contra hno
    have hno' : ∀ i, n ≤ i → ¬ e.lab i = .free j := fun i h1 h2 => hno ⟨i, h1, h2⟩
    obtain ⟨c, hc⟩ := hf.clock t.due
    have hnow : ∀ k, c ≤ k → t.due ≤ (e.at_ k).now := e.keeps (P := fun m => t.due ≤ m.now) (fun m m' l _ h hs => Nat.le_trans h hs.clock) hc
    obtain ⟨k, hk, hl⟩ := hf.free j (max n c) (fun k hk =>
      task_enabled (stay k (by omega) (fun i h1 _ => hno' i h1)) hw (hnow k (by omega)))
    exact hno' k (by omega) hl
  obtain ⟨k, hk, hl, hfirst⟩ := e.first (fun l => l = .free j) ex
  have hk' := stay k hk hfirst
  rcases (e.view k).task hk' with ⟨h1, _⟩ | ⟨_, t', h1, _, h2⟩
  · exact absurd hl h1
  · exact ⟨k + 1, t', by omega, h1, h2⟩

/-- Every free goroutine finishes. -/
theorem Execution.task_ends {cfg : Config} {e : Execution cfg} (hf : e.Fair) {n j : Nat} (hj : j < (e.at_ n).frees.length) :
    ∃ k, n ≤ k ∧ ∀ k', k ≤ k' → ∃ t, (e.at_ k').frees[j]? = some t ∧ t.weight = 0 := by
  have go : ∀ w n t, (e.at_ n).frees[j]? = some t → t.weight = w → ∃ k t, n ≤ k ∧ (e.at_ k).frees[j]? = some t ∧ t.weight = 0 := by
    intro w
    induction w using Nat.strongRecOn with
    | _ w ih =>
      intro n t ht hw
      by_cases h0 : t.weight = 0
      · exact ⟨n, t, Nat.le_refl _, ht, h0⟩
      · obtain ⟨k, t', hk, ht', hlt⟩ := Execution.task_moves hf ht h0
        obtain ⟨k', t'', hk', h⟩ := ih _ (hw ▸ hlt) k t' ht' rfl
        exact ⟨k', t'', by omega, h⟩
  obtain ⟨k, t, hk, ht, h0⟩ := go _ n _ (List.getElem?_eq_getElem hj) rfl
  refine ⟨k, hk, e.keeps (P := fun m => ∃ t, m.frees[j]? = some t ∧ t.weight = 0) ?_ ⟨t, ht, h0⟩⟩
  rintro m m' l _ ⟨t, ht, h0⟩ hs
  rcases hs.task ht with ⟨_, h1⟩ | ⟨_, t', _, _, h2⟩
  · exact ⟨t, h1, h0⟩
  · omega

/-- All of the first `f` free goroutines finish. -/
theorem Execution.tasks_end {cfg : Config} {e : Execution cfg} (hf : e.Fair) {n : Nat} : ∀ f, f ≤ (e.at_ n).frees.length →
    ∃ k, n ≤ k ∧ ∀ k', k ≤ k' → ∀ j, j < f → ∃ t, (e.at_ k').frees[j]? = some t ∧ t.weight = 0 := by
  intro f
  induction f with
  | zero => exact fun _ => ⟨n, Nat.le_refl _, fun _ _ j hj => absurd hj (by omega)⟩
  | succ f ih =>
    intro hle
    obtain ⟨k, hk, h⟩ := ih (by omega)
    obtain ⟨k2, hk2, h2⟩ := Execution.task_ends hf (n := n) (j := f) (by omega)
    refine ⟨max k k2, by omega, fun k' hk' j hj => ?_⟩
    rcases Nat.lt_or_ge j f with hjf | hjf
    · exact h k' (by omega) j hjf
    · obtain rfl : j = f := by omega
      exact h2 k' (by omega)

/-! ### Instances that have been superseded -/

/-- Nobody but the first `f` free goroutines will touch instance `i`. -/
structure Gone (i f : Nat) (m : Machine) : Prop where
  reg : i ∈ m.regs
  cur : i ∉ m.currentInsts
  le : f ≤ m.frees.length
  tasks : ∀ t ∈ m.frees.drop f, i ∉ t.todo ∧ i ∉ t.phase.insts
  run : ∀ r, m.running = some r → i ∉ r.held ∧ i ∉ r.phase.insts ∧ i ∉ acquired r.todo ∧ Act.release i ∉ r.todo ∧
    (∀ pm, Act.publish pm ∈ r.todo → i ∉ pm.insts) ∧ (∀ om, Act.spawnFree om ∈ r.todo → i ∉ om.releaseList)

theorem Gone.start {m : Machine} {i : Nat} (hreg : i ∈ m.regs) (hc : i ∉ m.currentInsts) (hr : m.running = none) : Gone i m.frees.length m :=
  ⟨hreg, hc, Nat.le_refl _, by simp, fun r h => by rw [hr] at h; cases h⟩

omit [GoRuntime] in
/-- Changing one of the goroutines. -/
theorem drop_mid {x y : List FreeTask} {t t' : FreeTask} {f i : Nat} (h : ∀ u ∈ (x ++ t :: y).drop f, i ∉ u.todo ∧ i ∉ u.phase.insts)
    (ht : (i ∉ t.todo ∧ i ∉ t.phase.insts) → i ∉ t'.todo ∧ i ∉ t'.phase.insts) : ∀ u ∈ (x ++ t' :: y).drop f, i ∉ u.todo ∧ i ∉ u.phase.insts := by
  intro u hu
  rcases Nat.lt_or_ge x.length f with hf | hf
  · refine h u ?_
    rw [List.drop_append] at hu ⊢
    obtain ⟨d, hd⟩ : ∃ d, f - x.length = d + 1 := ⟨f - x.length - 1, by omega⟩
    rw [hd] at hu ⊢
    simpa using hu
  · rw [List.drop_append_of_le_length hf] at hu h
    rcases List.mem_append.mp hu with hu | hu
    · exact h u (List.mem_append_left _ hu)
    · rcases List.mem_cons.mp hu with rfl | hu
      · exact ht (h t (by simp))
      · exact h u (by simp [hu])

/-- The start of a call with the plan `p`, if it has the shape of a plan, perhaps without the releases at the end. -/
theorem Gone.call {cfg : Config} {i f : Nat} {m : Machine} (h : Gone i f m) {k : Kind} {p : Plan} {rel0 : List Nat} (hs : Shape cfg k m.current m.next (p.plus rel0))
    (hlt : i < m.next) (hsnd : ∀ om, m.current = some om → SoundManager m.next om) : Gone i f (m.start k p) := by
  have hsub : ∀ {a}, a ∈ p.acts → a ∈ (p.plus rel0).acts := fun ha => List.mem_append_left _ ha
  have hacq : ∀ {pre : List Act} {n : Nat}, Log m.current m.next n pre → i ∉ acquired pre := by
    intro pre n hl hi
    rcases mem_acquired.mp hi with hi | hi
    · have := (hl.regs i hi).1; omega
    · obtain ⟨om, ho, hi⟩ := hl.incs i hi
      exact h.cur ((Machine.mem_currentInsts ho).mpr hi)
  have h7 : ∀ {a : Act} {pre : List Act}, (∀ a ∈ pre, a.stage ≤ 6) → 6 < a.stage → a ∉ pre := fun hp ha hm => by
    have := hp _ hm; omega
  have hcount : ∀ a ∈ countActs k, a = .count := by
    intro a ha
    cases k <;> simp [countActs] at ha
    exact ha
  have all : i ∉ acquired (p.plus rel0).acts ∧ Act.release i ∉ (p.plus rel0).acts ∧
      (∀ pm, Act.publish pm ∈ (p.plus rel0).acts → i ∉ pm.insts) ∧ (∀ om, Act.spawnFree om ∈ (p.plus rel0).acts → i ∉ om.releaseList) := by
    cases hs with
    | failed pre rel acts res log stage acq nodup built origin =>
      have hi := hacq log
      have hrel : i ∉ rel := fun hm => hi (acq.mem_iff.mpr hm)
      rw [acts]
      refine ⟨?_, ?_, ?_, ?_⟩
      · rw [acquired_append, acquired_eq_nil (l := rel.map Act.release) (fun a ha => by rw [stage_release rel a ha]; decide), List.append_nil]
        exact hi
      · intro hm
        rcases List.mem_append.mp hm with hm | hm
        · exact h7 stage (by simp [Act.stage]) hm
        · obtain ⟨j, hj, e⟩ := List.mem_map.mp hm
          cases e; exact hrel hj
      · intro pm hm
        rcases List.mem_append.mp hm with hm | hm
        · exact absurd hm (h7 stage (by simp [Act.stage]))
        · obtain ⟨j, hj, e⟩ := List.mem_map.mp hm
          cases e
      · intro pm hm
        rcases List.mem_append.mp hm with hm | hm
        · exact absurd hm (h7 stage (by simp [Act.stage]))
        · obtain ⟨j, hj, e⟩ := List.mem_map.mp hm
          cases e
    | ok pre acts d res log stage acq good origin =>
      have hi := hacq log
      have hsp : ∀ a ∈ (if cfg.static.isSome then [] else spawnActs m.current), ∃ om, a = .spawnFree om ∧ m.current = some om := by
        intro a ha
        split at ha
        · cases ha
        · cases ho : m.current with
          | none => rw [ho] at ha; cases ha
          | some om => rw [ho] at ha; simp [spawnActs] at ha; exact ⟨om, ha, rfl⟩
      have htail : ∀ a ∈ (if cfg.static.isSome then [] else spawnActs m.current) ++ (.publish (p.plus rel0).built :: countActs k),
          (∃ om, a = .spawnFree om ∧ m.current = some om) ∨ a = .publish (p.plus rel0).built ∨ a = .count := by
        intro a ha
        rcases List.mem_append.mp ha with ha | ha
        · exact .inl (hsp a ha)
        · rcases List.mem_cons.mp ha with ha | ha
          · exact .inr (.inl ha)
          · exact .inr (.inr (hcount a ha))
      rw [acts]
      refine ⟨?_, ?_, ?_, ?_⟩
      · rw [acquired_append, acquired_eq_nil (l := _ ++ _) (fun a ha => by rw [stage_tail a ha]; decide), List.append_nil]
        exact hi
      · intro hm
        rcases List.mem_append.mp hm with hm | hm
        · exact h7 stage (by simp [Act.stage]) hm
        · rcases htail _ hm with ⟨_, e, _⟩ | e | e <;> cases e
      · intro pm hm
        rcases List.mem_append.mp hm with hm | hm
        · exact absurd hm (h7 stage (by simp [Act.stage]))
        · rcases htail _ hm with ⟨_, e, _⟩ | e | e <;> cases e
          exact fun hb => hi (acq.mem_iff.mpr hb)
      · intro om hm
        rcases List.mem_append.mp hm with hm | hm
        · exact absurd hm (h7 stage (by simp [Act.stage]))
        · rcases htail _ hm with ⟨om', e, ho⟩ | e | e <;> cases e
          exact fun hb => h.cur ((Machine.mem_currentInsts ho).mpr ((hsnd om ho).release_perm.mem_iff.mp hb))
    | noop acts d res built =>
      rw [acts]
      refine ⟨?_, ?_, ?_, ?_⟩
      · rw [acquired_eq_nil (fun a ha => by rw [stage_count a ha]; decide)]; simp
      · intro hm; cases hcount _ hm
      · intro _ hm; cases hcount _ hm
      · intro _ hm; cases hcount _ hm
  obtain ⟨h1, h2, h3, h4⟩ := all
  refine ⟨by rw [show (m.start k p).regs = _ from regs_log m (.called k)]; exact List.mem_append_left _ h.reg, h.cur, h.le, h.tasks, ?_⟩
  intro r hr
  cases hr
  refine ⟨by simp, by simp [Phase.insts], ?_, fun hm => h2 (hsub hm), fun pm hm => h3 pm (hsub hm), fun om hm => h4 om (hsub hm)⟩
  intro hm
  refine h1 ?_
  rcases mem_acquired.mp hm with hm | hm
  · exact mem_acquired.mpr (.inl (hsub hm))
  · exact mem_acquired.mpr (.inr (hsub hm))

theorem Gone.step {cfg : Config} (hcfg : cfg.OK) {i f : Nat} {m m' : Machine} {l : Label} (hlt : i < m.next) (hsnd : ∀ om, m.current = some om → SoundManager m.next om) (h : Gone i f m)
    (hs : Step cfg m l m') : Gone i f m' := by
  have hregs : ∀ e, i ∈ (m.log e).regs := fun e => by rw [regs_log]; exact List.mem_append_left _ h.reg
  cases hs with
  | refused k env hk => exact ⟨hregs _, h.cur, h.le, h.tasks, h.run⟩
  | call k env hk run =>
    have hv := plan_view (env := env) (k := k) (old := m.current) (n0 := m.next) hcfg hsnd
    exact h.call (p := plan cfg env k m.current m.next) (rel0 := []) (by rw [Plan.plus_nil]; exact hv.shape hk) hlt hsnd
  | act r a rest run phase todo plain =>
    obtain ⟨h1, h2, h3, h4, h5, h6⟩ := h.run r run
    rw [todo] at h3 h4 h5 h6
    have hrest : i ∉ acquired rest := fun hm => h3 (by
      rcases mem_acquired.mp hm with hm | hm
      · exact mem_acquired.mpr (.inl (List.mem_cons_of_mem _ hm))
      · exact mem_acquired.mpr (.inr (List.mem_cons_of_mem _ hm)))
    have hrun : i ∉ heldAfter r.held a := by
      cases a with
      | register j =>
        refine fun hm => (List.mem_cons.mp hm).elim (fun e => h3 ?_) h1
        exact mem_acquired.mpr (.inl (by simp [e]))
      | inc j =>
        refine fun hm => (List.mem_cons.mp hm).elim (fun e => h3 ?_) h1
        exact mem_acquired.mpr (.inr (by simp [e]))
      | publish pm => simp [heldAfter]
      | release j => exact absurd rfl (plain j)
      | _ => exact h1
    refine ⟨?_, ?_, ?_, ?_, ?_⟩
    · have := hregs (.act a)
      cases a <;> exact this
    · cases a with
      | publish pm => exact h5 pm (by simp)
      | _ => exact h.cur
    · cases a with
      | spawnFree om => exact Nat.le_trans h.le (by simp [Machine.perform, Machine.log])
      | _ => exact h.le
    · cases a with
      | spawnFree om =>
        intro t ht
        change t ∈ (m.frees ++ [_]).drop f at ht
        rw [List.drop_append_of_le_length h.le] at ht
        rcases List.mem_append.mp ht with ht | ht
        · exact h.tasks t ht
        · simp at ht
          subst ht
          exact ⟨h6 om (by simp), by simp [Phase.insts]⟩
      | _ => exact h.tasks
    · intro r' hr'
      cases hr'
      exact ⟨hrun, h2, hrest, fun hm => h4 (List.mem_cons_of_mem _ hm), fun pm hm => h5 pm (List.mem_cons_of_mem _ hm),
        fun om hm => h6 om (List.mem_cons_of_mem _ hm)⟩
  | release r j rest run phase todo =>
    obtain ⟨h1, h2, h3, h4, h5, h6⟩ := h.run r run
    rw [todo] at h3 h4 h5 h6
    refine ⟨hregs (.act (.release j)), h.cur, h.le, h.tasks, ?_⟩
    intro r' hr'
    cases hr'
    have hij : i ≠ j := fun e => h4 (by simp [e])
    refine ⟨fun hm => h1 (List.erase_subset hm), ?_, ?_, fun hm => h4 (List.mem_cons_of_mem _ hm), fun pm hm => h5 pm (List.mem_cons_of_mem _ hm),
        fun om hm => h6 om (List.mem_cons_of_mem _ hm)⟩
    · change i ∉ (if m.refs j - 1 > 0 then Phase.idle else Phase.zero j).insts
      split <;> simp [Phase.insts, hij]
    · intro hm
      refine h3 ?_
      rcases mem_acquired.mp hm with hm | hm
      · exact mem_acquired.mpr (.inl (List.mem_cons_of_mem _ hm))
      · exact mem_acquired.mpr (.inr (List.mem_cons_of_mem _ hm))
  | runSkip r j run phase once =>
    refine ⟨h.reg, h.cur, h.le, h.tasks, ?_⟩
    intro r' hr'; cases hr'
    obtain ⟨h1, _, h3⟩ := h.run r run
    exact ⟨h1, by simp [Phase.insts], h3⟩
  | runBegin r j run phase once =>
    refine ⟨hregs (.freeBegin j), h.cur, h.le, h.tasks, ?_⟩
    intro r' hr'; cases hr'
    obtain ⟨h1, h2, h3⟩ := h.run r run
    rw [phase] at h2
    exact ⟨h1, h2, h3⟩
  | runEnd r j run phase =>
    refine ⟨hregs (.freeEnd j), h.cur, h.le, h.tasks, ?_⟩
    intro r' hr'; cases hr'
    obtain ⟨h1, _, h3⟩ := h.run r run
    exact ⟨h1, by simp [Phase.insts], h3⟩
  | ret r run todo phase =>
    exact ⟨hregs (.returned r.kind r.res), h.cur, h.le, h.tasks, fun r' hr' => by cases hr'⟩
  | freeDec t x y frees phase j rest todo due =>
    have hle := h.le
    have ht := h.tasks
    rw [frees] at hle ht
    refine ⟨h.reg, h.cur, by simpa using hle, drop_mid ht ?_, h.run⟩
    rintro ⟨h1, _⟩
    rw [todo, List.mem_cons, not_or] at h1
    refine ⟨h1.2, ?_⟩
    change i ∉ (if m.refs j - 1 > 0 then Phase.idle else Phase.zero j).insts
    split <;> simp [Phase.insts, h1.1]
  | freeSkip t x y frees j phase once =>
    have hle := h.le
    have ht := h.tasks
    rw [frees] at hle ht
    exact ⟨h.reg, h.cur, by simpa using hle, drop_mid ht (fun h => ⟨h.1, by simp [Phase.insts]⟩), h.run⟩
  | freeBegin t x y frees j phase once =>
    have hle := h.le
    have ht := h.tasks
    rw [frees] at hle ht
    exact ⟨hregs (.freeBegin j), h.cur, by simpa [Machine.log] using hle, drop_mid ht (fun h => by rw [phase] at h; exact h), h.run⟩
  | freeEnd t x y frees j phase =>
    have hle := h.le
    have ht := h.tasks
    rw [frees] at hle ht
    exact ⟨hregs (.freeEnd j), h.cur, by simpa [Machine.log] using hle, drop_mid ht (fun h => ⟨h.1, by simp [Phase.insts]⟩), h.run⟩
  | tick d => exact ⟨h.reg, h.cur, h.le, h.tasks, h.run⟩
  | read => exact ⟨hregs _, h.cur, h.le, h.tasks, h.run⟩
  | readCounter => exact ⟨hregs _, h.cur, h.le, h.tasks, h.run⟩

/-- When those goroutines are done, the instance has been freed. -/
theorem Gone.freed {cfg : Config} (hst : cfg.static = none) {L rel : List Nat} {i f : Nat} {m : Machine} (hinv : InvL L cfg (m.owing rel)) (hL : i ∉ L) (h : Gone i f m)
    (hd : ∀ j, j < f → ∃ t, m.frees[j]? = some t ∧ t.weight = 0) : m.begins.count i = 1 ∧ m.ends.count i = 1 := by
  have hall : ∀ t ∈ m.frees, i ∉ t.todo ∧ i ∉ t.phase.insts := by
    intro t ht
    obtain ⟨j, hj, rfl⟩ := List.getElem_of_mem ht
    rcases Nat.lt_or_ge j f with hjf | hjf
    · obtain ⟨t', h1, h2⟩ := hd j hjf
      rw [List.getElem?_eq_getElem hj] at h1
      cases h1
      obtain ⟨h3, h4⟩ := FreeTask.done h2
      rw [h3, h4]; simp [Phase.insts]
    · refine h.tasks _ ?_
      rw [List.mem_drop_iff_getElem]
      exact ⟨j - f, by omega, by congr 1; omega⟩
  have zs_sub : ∀ p : Phase, i ∉ p.insts → i ∉ p.zs ∧ i ∉ p.ins := by
    intro p hp
    cases p <;> simp_all [Phase.insts, Phase.zs, Phase.ins]
  have hrz : i ∉ runZs m.running ∧ i ∉ runIns m.running ∧ i ∉ runHeld m.running := by
    cases hr : m.running with
    | none => simp [runZs, runIns, runHeld]
    | some r =>
      obtain ⟨h1, h2, _⟩ := h.run r hr
      exact ⟨(zs_sub _ h2).1, (zs_sub _ h2).2, h1⟩
  have hh : i ∉ m.holds := by
    have ha : m.abandoned = L := hinv.dyn (by rw [hst]; rfl)
    unfold Machine.holds Machine.curHeld
    rw [ha]
    simp only [List.mem_append, not_or, List.mem_flatMap, not_exists, not_and]
    refine ⟨fun t ht => (hall t ht).1, ?_, hrz.2.2, hL⟩
    split
    · simp
    · exact h.cur
  have hz : i ∉ m.zs := by
    unfold Machine.zs
    simp only [List.mem_append, not_or, List.mem_flatMap, not_exists, not_and]
    exact ⟨hrz.1, fun t ht => (zs_sub _ (hall t ht).2).1⟩
  have hi : i ∉ m.ins := by
    unfold Machine.ins
    simp only [List.mem_append, not_or, List.mem_flatMap, not_exists, not_and]
    exact ⟨hrz.2.1, fun t ht => (zs_sub _ (hall t ht).2).2⟩
  have hsame : (m.owing rel).holds = m.holds ∧ (m.owing rel).zs = m.zs ∧ (m.owing rel).ins = m.ins := by
    cases hr : m.running with
    | none => rw [owing_none hr]; exact ⟨rfl, rfl, rfl⟩
    | some r =>
      rw [owing_some hr]
      unfold Machine.holds Machine.curHeld Machine.zs Machine.ins
      rw [hr]; exact ⟨rfl, rfl, rfl⟩
  have hb : m.begins.count i = if m.once i then 1 else 0 := hinv.core.begins_eq i
  have he : m.ends.count i + (m.owing rel).ins.count i = m.begins.count i := hinv.core.ends_eq i
  rw [← hsame.1] at hh
  rw [← hsame.2.1] at hz
  rw [hsame.2.2, List.count_eq_zero_of_not_mem hi] at he
  rcases hinv.core.done i h.reg hh with ho | ho
  · rw [show m.once i = true from ho] at hb
    simp at hb
    omega
  · exact absurd ho hz

/-- What is superseded is freed. -/
theorem Execution.freed {cfg : Config} (hcfg : cfg.OK) (hst : cfg.static = none) {e : Execution cfg} (hf : e.Fair) {n i : Nat}
    (hr : (e.at_ n).running = none) (hreg : i ∈ (e.at_ n).regs) (hc : i ∉ (e.at_ n).currentInsts) :
    e.Eventually (fun m => m.begins.count i = 1 ∧ m.ends.count i = 1) := by
  obtain ⟨k, hk, h⟩ := Execution.tasks_end hf (n := n) _ (Nat.le_refl _)
  have hg := e.keeps (P := Gone i (e.at_ n).frees.length) (fun m m' l hreach h hs => h.step hcfg ((inv hcfg hreach).regsLt i (List.mem_append_left _ h.reg)) (fun om ho => ((inv hcfg hreach).cur om ho).1) hs) (Gone.start hreg hc hr)
  exact ⟨k, fun k' hk' => (hg k' (by omega)).freed hst (L := []) (rel := []) (by rw [owing_nil]; exact inv hcfg (e.reachable k')) (by simp) (h k' hk')⟩

/-! ### Fair executions exist -/

/-- Following the labels of a list, then letting time pass. -/
def listLab (ls : List Label) (n : Nat) : Label := (ls[n]?).getD (.tick 1)

/-- The states of that execution. -/
def listAt (cfg : Config) (m : Machine) (ls : List Label) : Nat → Machine
  | 0 => m
  | n + 1 => ((listAt cfg m ls n).step cfg (listLab ls n)).getD m

theorem listAt_cons (cfg : Config) (m m1 : Machine) (l : Label) (r : List Label) (h : m.step cfg l = some m1)
    (hd : ∀ n, ((listAt cfg m1 r n).step cfg (listLab r n)).isSome = true) : ∀ n, listAt cfg m (l :: r) (n + 1) = listAt cfg m1 r n := by
  intro n
  induction n with
  | zero => simp [listAt, listLab, h]
  | succ n ih =>
    change ((listAt cfg m (l :: r) (n + 1)).step cfg (listLab (l :: r) (n + 1))).getD m = ((listAt cfg m1 r n).step cfg (listLab r n)).getD m1
    rw [ih]
    have e : listLab (l :: r) (n + 1) = listLab r n := by simp [listLab]
    rw [e]
    obtain ⟨x, hx⟩ := Option.isSome_iff_exists.mp (hd n)
    rw [hx]; rfl

theorem listAt_nil (cfg : Config) (m : Machine) : ∀ n, listAt cfg m [] n = { m with now := m.now + n } := by
  intro n
  induction n with
  | zero => rfl
  | succ n ih =>
    change ((listAt cfg m [] n).step cfg (listLab [] n)).getD m = _
    rw [ih]; rfl

theorem listAt_ok {cfg : Config} {ls : List Label} {m m' : Machine} (h : m.steps cfg ls = some m') :
    (∀ n, ((listAt cfg m ls n).step cfg (listLab ls n)).isSome = true) ∧ ∀ n, listAt cfg m ls (ls.length + n) = { m' with now := m'.now + n } := by
  induction ls generalizing m with
  | nil =>
    simp [Machine.steps] at h
    subst h
    refine ⟨fun n => ?_, fun n => ?_⟩
    · rw [listAt_nil]; rfl
    · rw [listAt_nil]; simp
  | cons l r ih =>
    unfold Machine.steps at h
    cases h1 : m.step cfg l with
    | none => rw [h1] at h; cases h
    | some m1 =>
      rw [h1] at h
      obtain ⟨ih1, ih2⟩ := ih h
      have hc := listAt_cons cfg m m1 l r h1 ih1
      refine ⟨fun n => ?_, fun n => ?_⟩
      · cases n with
        | zero => simp [listAt, listLab, h1]
        | succ n =>
          rw [hc]
          have e : listLab (l :: r) (n + 1) = listLab r n := by simp [listLab]
          rw [e]; exact ih1 n
      · have e : (l :: r).length + n = (r.length + n) + 1 := by simp; omega
        rw [e, hc, ih2]

/-- The execution that follows the labels and then rests. -/
def Execution.ofList {cfg : Config} {m m' : Machine} {ls : List Label} (hr : Reachable cfg m) (h : m.steps cfg ls = some m') : Execution cfg where
  at_ := listAt cfg m ls
  lab := listLab ls
  start := hr
  next n := by
    obtain ⟨x, hx⟩ := Option.isSome_iff_exists.mp ((listAt_ok h).1 n)
    change _ = some (((listAt cfg m ls n).step cfg (listLab ls n)).getD m)
    rw [hx]; rfl

/-- At rest, only calls, ticks and reads are possible. -/
theorem quiet_stuck {cfg : Config} {m : Machine} (hq : m.Quiet) {l : Label} (hl : l = .act ∨ l = .ret ∨ ∃ n, l = .free n) : m.step cfg l = none := by
  cases h : m.step cfg l with
  | none => rfl
  | some m' =>
    have hno : ∀ r, m.running ≠ some r := fun r hr => by rw [hq.1] at hr; cases hr
    have hin : ∀ {x y : List FreeTask} {t : FreeTask}, m.frees = x ++ t :: y → t.todo = [] ∧ t.phase = .idle :=
      fun he => hq.2 _ (by rw [he]; simp)
    have hs := step_view h
    cases hs with
    | refused k env h => simp at hl
    | call k env h run => simp at hl
    | act r a rest run phase todo plain => exact absurd run (hno r)
    | release r i rest run phase todo => exact absurd run (hno r)
    | runSkip r i run phase once => exact absurd run (hno r)
    | runBegin r i run phase once => exact absurd run (hno r)
    | runEnd r i run phase => exact absurd run (hno r)
    | ret r run todo phase => exact absurd run (hno r)
    | freeDec t x y frees phase i rest todo due => have := (hin frees).1; rw [todo] at this; cases this
    | freeSkip t x y frees i phase once => have := (hin frees).2; rw [phase] at this; cases this
    | freeBegin t x y frees i phase once => have := (hin frees).2; rw [phase] at this; cases this
    | freeEnd t x y frees i phase => have := (hin frees).2; rw [phase] at this; cases this
    | tick d => simp at hl
    | read => simp at hl
    | readCounter => simp at hl

/-- An execution that is at rest again and again, and whose clock does not stop, is fair. -/
theorem fair_of_quiet {cfg : Config} {e : Execution cfg} (hq : ∀ n, ∃ k, n ≤ k ∧ (e.at_ k).Quiet) (hc : ∀ t, ∃ k, t ≤ (e.at_ k).now) : e.Fair := by
  have wrap : ∀ l, (l = .act ∨ l = .ret ∨ ∃ n, l = .free n) → e.FairTo l := by
    intro l hl n hen
    obtain ⟨k, hk, h⟩ := hq n
    have := hen k hk
    rw [quiet_stuck h hl] at this
    cases this
  exact ⟨wrap _ (.inl rfl), wrap _ (.inr (.inl rfl)), fun n => wrap _ (.inr (.inr ⟨n, rfl⟩)), hc⟩

theorem Execution.ofList_fair {cfg : Config} {m m' : Machine} {ls : List Label} (hr : Reachable cfg m) (h : m.steps cfg ls = some m') (hq : m'.Quiet) :
    (Execution.ofList hr h).Fair := by
  have hat : ∀ n, (Execution.ofList hr h).at_ (ls.length + n) = { m' with now := m'.now + n } := (listAt_ok h).2
  refine fair_of_quiet (fun n => ⟨ls.length + n, by omega, ?_⟩) (fun t => ⟨ls.length + t, ?_⟩)
  · rw [hat]; exact hq
  · rw [hat]; exact Nat.le_add_left ..

/-- From every reachable state, a fair execution. -/
theorem fair_exists {cfg : Config} {m : Machine} (hr : Reachable cfg m) : ∃ e : Execution cfg, e.Fair ∧ e.at_ 0 = m := by
  obtain ⟨ls, m', h, hq, _⟩ := drain (cfg := cfg) _ m rfl
  exact ⟨Execution.ofList hr h, Execution.ofList_fair hr h hq, rfl⟩

/-! ### Serving an endless sequence of calls -/

/-- Can one of the goroutines move now? -/
def Machine.CanMove (m : Machine) : Prop := m.running ≠ none ∨ ∃ t ∈ m.frees, t.weight ≠ 0 ∧ t.due ≤ m.now

open Classical in
/-- The work left, and whether time must pass first. -/
noncomputable def Machine.toRest (m : Machine) : Nat := 2 * m.weight + if m.CanMove then 0 else 1

theorem rest_step {cfg : Config} {m : Machine} (hq : ¬ m.Quiet) :
    ∃ l m', Step cfg m l m' ∧ l.isCall = false ∧ m'.toRest < m.toRest ∧ m.now ≤ m'.now := by
  have two : ∀ m' : Machine, m'.weight < m.weight → m'.toRest < m.toRest := by
    intro m' h
    unfold Machine.toRest
    split <;> split <;> omega
  cases hr : m.running with
  | some r =>
    obtain ⟨l, m', hl, hs, hw⟩ := run_step (cfg := cfg) hr
    exact ⟨l, m', hs, by rcases hl with rfl | rfl <;> rfl, two m' hw, hs.clock⟩
  | none =>
    by_cases hm : ∃ t ∈ m.frees, t.weight ≠ 0 ∧ t.due ≤ m.now
    · obtain ⟨t, ht, h1, h2⟩ := hm
      obtain ⟨n, m', hs, hw⟩ := free_step (cfg := cfg) ht (FreeTask.busy h1) h2
      exact ⟨_, m', hs, rfl, two m' hw, hs.clock⟩
    · have hb : ∃ t ∈ m.frees, t.weight ≠ 0 := by
        by_contra hno
        refine hq ⟨hr, fun t ht => FreeTask.done ?_⟩
        by_contra h0
        exact hno ⟨t, ht, h0⟩
      obtain ⟨t, ht, h0⟩ := hb
      refine ⟨.tick t.due, _, .tick t.due, rfl, ?_, Nat.le_add_right ..⟩
      have h1 : ¬ m.CanMove := by
        rintro (h | h)
        · exact h hr
        · exact hm h
      have h2 : ({ m with now := m.now + t.due } : Machine).CanMove := .inr ⟨t, ht, h0, Nat.le_add_left ..⟩
      unfold Machine.toRest
      rw [if_neg h1, if_pos h2]
      exact Nat.lt_succ_self _

theorem call_step {cfg : Config} {m : Machine} (hq : m.Quiet) (k : Kind) (env : Env) : ∃ m', Step cfg m (.call k env) m' := by
  cases hk : refused cfg k with
  | true => exact ⟨_, .refused k env hk⟩
  | false => exact ⟨_, .call k env hk hq.1⟩

/-- A step of the server: work if there is work, else alternate between the next call and a tick. -/
theorem serve_step (cfg : Config) (c : Nat → Kind × Env) (s : Machine × Nat) : ∃ (l : Label) (s' : Machine × Nat), Step cfg s.1 l s'.1 ∧
    (¬ s.1.Quiet → s'.2 = s.2 ∧ s'.1.toRest < s.1.toRest ∧ s.1.now ≤ s'.1.now) ∧
    (s.1.Quiet → s'.2 = s.2 + 1 ∧ (s.2 % 2 = 0 → l = .call (c (s.2 / 2)).1 (c (s.2 / 2)).2) ∧ (s.2 % 2 = 1 → l = .tick 1 ∧ s'.1.now = s.1.now + 1)) := by
  by_cases hq : s.1.Quiet
  · by_cases hp : s.2 % 2 = 0
    · obtain ⟨m', hs⟩ := call_step (cfg := cfg) hq (c (s.2 / 2)).1 (c (s.2 / 2)).2
      exact ⟨_, (m', s.2 + 1), hs, fun h => absurd hq h, fun _ => ⟨rfl, fun _ => rfl, fun h => by omega⟩⟩
    · exact ⟨.tick 1, (_, s.2 + 1), .tick 1, fun h => absurd hq h, fun _ => ⟨rfl, fun h => absurd h hp, fun _ => ⟨rfl, rfl⟩⟩⟩
  · obtain ⟨l, m', hs, _, h1, h2⟩ := rest_step (cfg := cfg) hq
    exact ⟨l, (m', s.2), hs, fun _ => ⟨rfl, h1, h2⟩, fun h => absurd h hq⟩

theorem serve_exists {cfg : Config} {m : Machine} (hr : Reachable cfg m) (c : Nat → Kind × Env) :
    ∃ e : Execution cfg, e.Fair ∧ e.at_ 0 = m ∧ ∃ pos : Nat → Nat, (∀ i j, i < j → pos i < pos j) ∧ ∀ j, e.lab (pos j) = .call (c j).1 (c j).2 := by
  classical
  choose lab next hstep hbusy hquiet using serve_step cfg c
  let st : Nat → Machine × Nat := fun n => Nat.rec (m, 0) (fun _ s => next s) n
  have hst : ∀ n, st (n + 1) = next (st n) := fun _ => rfl
  let e : Execution cfg := ⟨fun n => (st n).1, fun n => lab (st n), hr, fun n => by rw [hst]; exact (hstep (st n)).enabled⟩
  -- at rest again and again, with the same counter
  have rest : ∀ n, ∃ k, n ≤ k ∧ (st k).1.Quiet ∧ (st k).2 = (st n).2 := by
    have go : ∀ w n, (st n).1.toRest = w → ∃ k, n ≤ k ∧ (st k).1.Quiet ∧ (st k).2 = (st n).2 := by
      intro w
      induction w using Nat.strongRecOn with
      | _ w ih =>
        intro n hw
        by_cases hq : (st n).1.Quiet
        · exact ⟨n, Nat.le_refl _, hq, rfl⟩
        · obtain ⟨h1, h2, _⟩ := hbusy (st n) hq
          rw [← hst] at h1 h2
          obtain ⟨k, hk, h3, h4⟩ := ih _ (hw ▸ h2) (n + 1) rfl
          exact ⟨k, by omega, h3, h4.trans h1⟩
    exact fun n => go _ n rfl
  have mono1 : ∀ n, (st n).2 ≤ (st (n + 1)).2 := by
    intro n
    rw [hst]
    by_cases hq : (st n).1.Quiet
    · have := (hquiet (st n) hq).1; omega
    · have := (hbusy (st n) hq).1; omega
  have mono : ∀ n k, n ≤ k → (st n).2 ≤ (st k).2 := by
    intro n k hk
    induction hk with
    | refl => exact Nat.le_refl _
    | step _ ih => exact Nat.le_trans ih (mono1 _)
  -- the counter takes all values, at rest
  have all : ∀ p, ∃ k, (st k).1.Quiet ∧ (st k).2 = p := by
    intro p
    induction p with
    | zero => obtain ⟨k, _, h1, h2⟩ := rest 0; exact ⟨k, h1, h2⟩
    | succ p ih =>
      obtain ⟨k, h1, h2⟩ := ih
      have h3 := (hquiet (st k) h1).1
      rw [← hst] at h3
      obtain ⟨k', _, h4, h5⟩ := rest (k + 1)
      exact ⟨k', h4, by omega⟩
  have clock : ∀ n, (st n).2 / 2 ≤ (st n).1.now := by
    intro n
    induction n with
    | zero => change 0 / 2 ≤ m.now; omega
    | succ n ih =>
      have hmono := (hstep (st n)).clock
      rw [← hst] at hmono
      by_cases hq : (st n).1.Quiet
      · obtain ⟨h1, h2, h3⟩ := hquiet (st n) hq
        rw [← hst] at h1 h3
        rcases Nat.mod_two_eq_zero_or_one (st n).2 with hp | hp
        · omega
        · have := (h3 hp).2; omega
      · have h1 := (hbusy (st n) hq).1
        rw [← hst] at h1
        omega
  refine ⟨e, fair_of_quiet ?_ ?_, rfl, ?_⟩
  · intro n
    obtain ⟨k, hk, h, _⟩ := rest n
    exact ⟨k, hk, h⟩
  · intro t
    obtain ⟨k, _, h⟩ := all (2 * t)
    refine ⟨k, ?_⟩
    have := clock k
    change t ≤ (st k).1.now
    omega
  · choose pos hp1 hp2 using fun j => all (2 * j)
    refine ⟨pos, ?_, ?_⟩
    · intro i j hij
      by_contra hge
      have := mono _ _ (Nat.not_lt.mp hge)
      rw [hp2, hp2] at this
      omega
    · intro j
      have := (hquiet (st (pos j)) (hp1 j)).2.1 (by rw [hp2]; omega)
      change lab (st (pos j)) = _
      rw [this, hp2]
      simp

/-- Without further calls, the program comes to rest. -/
theorem Execution.settles {cfg : Config} {e : Execution cfg} (hf : e.Fair) {n : Nat} (hn : ∀ k, n ≤ k → (e.lab k).isCall = false) : e.Eventually Machine.Quiet := by
  obtain ⟨k, hk, hr⟩ := Execution.returns hf n
  have keep : ∀ j, k ≤ j → (e.at_ j).running = none ∧ (e.at_ j).frees.length = (e.at_ k).frees.length := by
    intro j hj
    induction hj with
    | refl => exact ⟨hr, rfl⟩
    | @step j hj ih =>
      have hlab := hn j (by have : k ≤ j := hj; omega)
      have hs := e.view j
      generalize e.at_ j = a at *
      generalize e.at_ (j + 1) = b at *
      generalize e.lab j = l at *
      have hno : ∀ r, a.running ≠ some r := fun r hr => by rw [ih.1] at hr; cases hr
      obtain ⟨ih1, ih2⟩ := ih
      cases hs with
      | refused k env h => cases hlab
      | call k env h run => cases hlab
      | act r a rest run phase todo plain => exact absurd run (hno r)
      | release r i rest run phase todo => exact absurd run (hno r)
      | runSkip r i run phase once => exact absurd run (hno r)
      | runBegin r i run phase once => exact absurd run (hno r)
      | runEnd r i run phase => exact absurd run (hno r)
      | ret r run todo phase => exact absurd run (hno r)
      | freeDec t x y frees phase i rest todo due => rw [frees] at ih2; exact ⟨ih1, by simpa using ih2⟩
      | freeSkip t x y frees i phase once => rw [frees] at ih2; exact ⟨ih1, by simpa using ih2⟩
      | freeBegin t x y frees i phase once => rw [frees] at ih2; exact ⟨ih1, by simpa [Machine.log] using ih2⟩
      | freeEnd t x y frees i phase => rw [frees] at ih2; exact ⟨ih1, by simpa [Machine.log] using ih2⟩
      | tick d => exact ⟨ih1, ih2⟩
      | read => exact ⟨ih1, ih2⟩
      | readCounter => exact ⟨ih1, ih2⟩
  obtain ⟨k2, hk2, h⟩ := Execution.tasks_end hf (n := k) _ (Nat.le_refl _)
  refine ⟨k2, fun j hj => ⟨(keep j (by omega)).1, fun t ht => ?_⟩⟩
  obtain ⟨x, hx, rfl⟩ := List.getElem_of_mem ht
  obtain ⟨t', h1, h2⟩ := h j hj x (by rw [← (keep j (by omega)).2]; exact hx)
  rw [List.getElem?_eq_getElem hx] at h1
  cases h1
  exact FreeTask.done h2

/-- A call goes on or returns. -/
theorem Step.goes_on {cfg : Config} {m m' : Machine} {l : Label} (h : Step cfg m l m') {r : Running} (hr : m.running = some r) :
    (∃ r', m'.running = some r' ∧ r'.kind = r.kind ∧ r'.res = r.res) ∨
    (l = .ret ∧ m'.running = none ∧ m'.trace = m.trace ++ [(m.now, .returned r.kind r.res)]) := by
  cases h with
  | call k env h run => rw [hr] at run; cases run
  | act r' a rest run phase todo plain => rw [hr] at run; cases run; exact .inl ⟨_, rfl, rfl, rfl⟩
  | release r' i rest run phase todo => rw [hr] at run; cases run; exact .inl ⟨_, rfl, rfl, rfl⟩
  | runSkip r' i run phase once => rw [hr] at run; cases run; exact .inl ⟨_, rfl, rfl, rfl⟩
  | runBegin r' i run phase once => rw [hr] at run; cases run; exact .inl ⟨_, rfl, rfl, rfl⟩
  | runEnd r' i run phase => rw [hr] at run; cases run; exact .inl ⟨_, rfl, rfl, rfl⟩
  | ret r' run todo phase => rw [hr] at run; cases run; exact .inr ⟨rfl, rfl, rfl⟩
  | _ => exact .inl ⟨r, hr, rfl, rfl⟩

theorem Execution.returned {cfg : Config} {e : Execution cfg} (hf : e.Fair) {n : Nat} {r : Running} (hr : (e.at_ n).running = some r) :
    ∃ k, n ≤ k ∧ (∀ j, n ≤ j → j ≤ k → (e.at_ j).running.isSome = true) ∧
      (e.at_ (k + 1)).trace = (e.at_ k).trace ++ [((e.at_ k).now, .returned r.kind r.res)] ∧ (e.at_ (k + 1)).running = none := by
  obtain ⟨k0, hk0, h0⟩ := Execution.returns hf n
  have go : ∀ d n r, n + d = k0 → (e.at_ n).running = some r → ∃ k, n ≤ k ∧ (∀ j, n ≤ j → j ≤ k → (e.at_ j).running.isSome = true) ∧
      (e.at_ (k + 1)).trace = (e.at_ k).trace ++ [((e.at_ k).now, .returned r.kind r.res)] ∧ (e.at_ (k + 1)).running = none := by
    intro d
    induction d with
    | zero => intro n r hn hr; rw [show n = k0 by omega, h0] at hr; cases hr
    | succ d ih =>
      intro n r hn hr
      rcases (e.view n).goes_on hr with ⟨r', h1, h2, h3⟩ | ⟨_, h1, h2⟩
      · obtain ⟨k, hk, h4, h5, h6⟩ := ih (n + 1) r' (by omega) h1
        refine ⟨k, by omega, ?_, by rw [h5, h2, h3], h6⟩
        intro j hj hjk
        rcases Nat.eq_or_lt_of_le hj with rfl | hj
        · rw [hr]; rfl
        · exact h4 j hj hjk
      · refine ⟨n, Nat.le_refl _, ?_, h2, h1⟩
        intro j hj hjk
        obtain rfl : n = j := by omega
        rw [hr]; rfl
  exact go (k0 - n) n r (by omega) hr

theorem Step.begins_mono {cfg : Config} {m m' : Machine} {l : Label} (h : Step cfg m l m') (i : Nat) : m.begins.count i ≤ m'.begins.count i := by
  have hlog : ∀ e, m.begins.count i ≤ (m.log e).begins.count i := fun e => by rw [begins_log, List.count_append]; exact Nat.le_add_right ..
  cases h with
  | act r a rest run phase todo plain => have := hlog (.act a); cases a <;> exact this
  | refused k env h => exact hlog _
  | call k env h run => exact hlog (.called k)
  | release r j rest run phase todo => exact hlog (.act (.release j))
  | runBegin r j run phase once => exact hlog (.freeBegin j)
  | runEnd r j run phase => exact hlog (.freeEnd j)
  | ret r run todo phase => exact hlog (.returned r.kind r.res)
  | freeBegin t x y frees j phase once => exact hlog (.freeBegin j)
  | freeEnd t x y frees j phase => exact hlog (.freeEnd j)
  | read => exact hlog _
  | readCounter => exact hlog _
  | _ => exact Nat.le_refl _

theorem current_not_freed {cfg : Config} (hcfg : cfg.OK) {m : Machine} (h : Reachable cfg m) (hr : m.running = none) {i : Nat} (hi : i ∈ m.currentInsts) :
    m.begins.count i = 0 := by
  have hinv := inv hcfg h
  have hb := hinv.core.begins_eq i
  cases ho : m.once i with
  | false => rw [ho] at hb; exact hb
  | true =>
    refine absurd ?_ (hinv.core.once_ok i ho).2
    unfold Machine.holds Machine.curHeld
    rw [hinv.idle hr]
    simp [hi]

end Hotswap
