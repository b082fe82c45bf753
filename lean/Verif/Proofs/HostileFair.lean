import Verif.Proofs.Hostile
import Verif.Proofs.Fair

/-! Fair executions of programs whose plugins misbehave in every way. -/

namespace Hotswap

variable [GoRuntime] {L : List Nat}

theorem WExecution.reachable {cfg : Config} (e : WExecution cfg) : ∀ n, WReachable cfg (e.at_ n) (e.lost n)
  | 0 => e.start
  | n + 1 => by rw [(e.next n).2]; exact .step _ (e.reachable n) (e.next n).1

theorem WExecution.view {cfg : Config} (e : WExecution cfg) (n : Nat) : WStep cfg (e.at_ n) (e.lab n) (e.at_ (n + 1)) := wstep_view (e.next n).1

theorem WExecution.keeps {cfg : Config} (e : WExecution cfg) {P : Machine → Prop}
    (hP : ∀ m m' l, (∃ L, WReachable cfg m L) → P m → WStep cfg m l m' → P m') {n : Nat} (h : P (e.at_ n)) : ∀ k, n ≤ k → P (e.at_ k) := by
  intro k hk
  induction hk with
  | refl => exact h
  | @step k _ ih => exact hP _ _ _ ⟨_, e.reachable k⟩ ih (e.view k)

theorem WExecution.first {cfg : Config} (e : WExecution cfg) (S : WLabel → Prop) {n : Nat} (h : ∃ k, n ≤ k ∧ S (e.lab k)) :
    ∃ k, n ≤ k ∧ S (e.lab k) ∧ ∀ j, n ≤ j → j < k → ¬ S (e.lab j) := by
  obtain ⟨k, hk, hS⟩ := h
  induction k using Nat.strongRecOn with
  | _ k ih =>
    by_cases hf : ∃ j, n ≤ j ∧ j < k ∧ S (e.lab j)
    · obtain ⟨j, h1, h2, h3⟩ := hf; exact ih j h2 h1 h3
    · exact ⟨k, hk, hS, fun j h1 h2 h3 => hf ⟨j, h1, h2, h3⟩⟩

theorem WExecution.lost_mono {cfg : Config} (e : WExecution cfg) {i n : Nat} (h : i ∈ e.lost n) : ∀ k, n ≤ k → i ∈ e.lost k := by
  intro k hk
  induction hk with
  | refl => exact h
  | @step k _ ih => rw [(e.next k).2]; exact List.mem_append_right _ ih

/-! ### The running call -/

/-- A step of the call that holds the lock. -/
def OfCall : WLabel → Prop
  | .go (.go .act) => True
  | .go (.go .ret) => True
  | .exitCall => True
  | _ => False

theorem WStep.running {cfg : Config} {m m' : Machine} {l : WLabel} (h : WStep cfg m l m') {r : Running} (hr : m.running = some r) :
    (¬ OfCall l ∧ m'.running = some r) ∨ (OfCall l ∧ runWeight m'.running < runWeight m.running) := by
  cases h with
  | go l m' hn =>
    cases hn with
    | go l m' st nr =>
      rcases st.running hr with ⟨h1, h2, h3⟩ | ⟨h1, h2⟩
      · refine .inl ⟨?_, h3⟩
        cases l <;> simp_all [OfCall]
      · refine .inr ⟨?_, h2⟩
        rcases h1 with rfl | rfl <;> trivial
    | refused k env hk => exact .inl ⟨by simp [OfCall], hr⟩
    | call k env hk run => rw [hr] at run; cases run
    | ret r' run todo phase => exact .inr ⟨trivial, by rw [run]; simp only [runWeight]; omega⟩
  | hook r' a rest run phase todo may => exact .inr ⟨trivial, by rw [run]; simp only [runWeight, Machine.drop]; omega⟩
  | cleanup r' i run phase => exact .inr ⟨trivial, by rw [run]; simp only [runWeight, Machine.drop]; omega⟩
  | free t x y frees i phase => exact .inl ⟨by simp [OfCall], hr⟩

theorem wstep_of_step {cfg : Config} {m : Machine} {l : Label} (h : (m.step cfg l).isSome = true) : (m.wstep cfg (.go (.go l))).isSome = true := by
  obtain ⟨m', hm⟩ := Option.isSome_iff_exists.mp h
  change (m.nstep cfg (.go l)).isSome = true
  cases l with
  | ret =>
    cases step_view hm with
    | ret r run todo phase =>
      unfold Machine.nstep
      simp only
      rw [run]
      simp only [hm]
      rfl
  | _ => exact h

theorem WExecution.run_moves {cfg : Config} {e : WExecution cfg} (hf : e.Fair) {n : Nat} {r : Running} (hr : (e.at_ n).running = some r) :
    ∃ k, n ≤ k ∧ runWeight (e.at_ k).running < runWeight (e.at_ n).running := by
  have stay : ∀ k, n ≤ k → (∀ j, n ≤ j → j < k → ¬ OfCall (e.lab j)) → (e.at_ k).running = some r := by
    intro k hk
    induction hk with
    | refl => exact fun _ => hr
    | @step k hk ih =>
      intro h
      have h0 := ih (fun j h1 h2 => h j h1 (by omega))
      rcases (e.view k).running h0 with ⟨_, h1⟩ | ⟨h1, _⟩
      · exact h1
      · exact absurd h1 (h k hk (by omega))
  have ex : ∃ k, n ≤ k ∧ OfCall (e.lab k) := by
    by_contra hno
    have hno' : ∀ j, n ≤ j → ¬ OfCall (e.lab j) := fun j h1 h2 => hno ⟨j, h1, h2⟩
    have hst : ∀ k, n ≤ k → (e.at_ k).running = some r := fun k hk => stay k hk (fun j h1 _ => hno' j h1)
    rcases run_enabled (cfg := cfg) (r := r) with h | h
    · obtain ⟨k, hk, hl⟩ := hf.act n (fun k hk => wstep_of_step (h _ (hst k hk)))
      exact hno' k hk (by rw [hl]; trivial)
    · obtain ⟨k, hk, hl⟩ := hf.ret n (fun k hk => wstep_of_step (h _ (hst k hk)))
      exact hno' k hk (by rw [hl]; trivial)
  obtain ⟨k, hk, hl, hfirst⟩ := e.first OfCall ex
  have hk' := stay k hk hfirst
  refine ⟨k + 1, by omega, ?_⟩
  rcases (e.view k).running hk' with ⟨h1, _⟩ | ⟨_, h1⟩
  · exact absurd hl h1
  · rw [hr, ← hk']; exact h1

/-- Every call ends. -/
theorem WExecution.returns {cfg : Config} {e : WExecution cfg} (hf : e.Fair) : ∀ n, ∃ k, n ≤ k ∧ (e.at_ k).running = none := by
  have go : ∀ w n, runWeight (e.at_ n).running = w → ∃ k, n ≤ k ∧ (e.at_ k).running = none := by
    intro w
    induction w using Nat.strongRecOn with
    | _ w ih =>
      intro n hw
      cases hr : (e.at_ n).running with
      | none => exact ⟨n, Nat.le_refl _, hr⟩
      | some r =>
        obtain ⟨k, hk, hlt⟩ := WExecution.run_moves hf hr
        obtain ⟨k', hk', h⟩ := ih _ (hw ▸ hlt) k rfl
        exact ⟨k', by omega, h⟩
  exact fun n => go _ n rfl

/-! ### The free goroutines -/

/-- A step of free goroutine `n`. -/
def OfTask (n : Nat) (l : WLabel) : Prop := l = .go (.go (.free n)) ∨ l = .exitFree n

theorem WStep.task {cfg : Config} {m m' : Machine} {l : WLabel} (h : WStep cfg m l m') {n : Nat} {t : FreeTask} (ht : m.frees[n]? = some t) :
    (¬ OfTask n l ∧ m'.frees[n]? = some t) ∨ (OfTask n l ∧ ∃ t', m'.frees[n]? = some t' ∧ t'.due = t.due ∧ t'.weight < t.weight) := by
  cases h with
  | go l m' hn =>
    cases hn with
    | go l m' st nr =>
      rcases st.task ht with ⟨h1, h2⟩ | ⟨h1, h2⟩
      · refine .inl ⟨?_, h2⟩
        rintro (e | e)
        · cases e; exact h1 rfl
        · cases e
      · exact .inr ⟨.inl (by rw [h1]), h2⟩
    | refused k env hk => exact .inl ⟨by simp [OfTask], ht⟩
    | call k env hk run => exact .inl ⟨by simp [OfTask], ht⟩
    | ret r' run todo phase => exact .inl ⟨by simp [OfTask], ht⟩
  | hook r' a rest run phase todo may => exact .inl ⟨by simp [OfTask], ht⟩
  | cleanup r' i run phase => exact .inl ⟨by simp [OfTask], ht⟩
  | free t0 x y frees i phase =>
    by_cases hn : n = x.length
    · subst hn
      rw [frees, getElem?_mid] at ht
      cases ht
      refine .inr ⟨.inr rfl, _, getElem?_mid .., rfl, ?_⟩
      simp [FreeTask.weight, phase, Phase.weight]
    · refine .inl ⟨?_, ?_⟩
      · rintro (e | e)
        · cases e
        · cases e; exact hn rfl
      · change (x ++ _ :: y)[n]? = some t
        rw [get_mid_ne (t := t0) hn, ← frees]; exact ht

theorem WStep.clock {cfg : Config} {m m' : Machine} {l : WLabel} (h : WStep cfg m l m') : m.now ≤ m'.now := by
  cases h with
  | go l m' hn =>
    cases hn with
    | go l m' st nr => exact st.clock
    | _ => exact Nat.le_refl _
  | _ => exact Nat.le_refl _

theorem WExecution.task_moves {cfg : Config} {e : WExecution cfg} (hf : e.Fair) {n j : Nat} {t : FreeTask} (ht : (e.at_ n).frees[j]? = some t)
    (hw : t.weight ≠ 0) : ∃ k t', n ≤ k ∧ (e.at_ k).frees[j]? = some t' ∧ t'.weight < t.weight := by
  have stay : ∀ k, n ≤ k → (∀ i, n ≤ i → i < k → ¬ OfTask j (e.lab i)) → (e.at_ k).frees[j]? = some t := by
    intro k hk
    induction hk with
    | refl => exact fun _ => ht
    | @step k hk ih =>
      intro h
      have h0 := ih (fun i h1 h2 => h i h1 (by omega))
      rcases (e.view k).task h0 with ⟨_, h1⟩ | ⟨h1, _⟩
      · exact h1
      · exact absurd h1 (h k hk (by omega))
  have ex : ∃ k, n ≤ k ∧ OfTask j (e.lab k) := by
    by_contra hno
    have hno' : ∀ i, n ≤ i → ¬ OfTask j (e.lab i) := fun i h1 h2 => hno ⟨i, h1, h2⟩
    obtain ⟨c, hc⟩ := hf.clock t.due
    have hnow : ∀ k, c ≤ k → t.due ≤ (e.at_ k).now := e.keeps (P := fun m => t.due ≤ m.now) (fun m m' l _ h hs => Nat.le_trans h hs.clock) hc
    obtain ⟨k, hk, hl⟩ := hf.free j (max n c) (fun k hk =>
      wstep_of_step (task_enabled (stay k (by omega) (fun i h1 _ => hno' i h1)) hw (hnow k (by omega))))
    exact hno' k (by omega) (.inl hl)
  obtain ⟨k, hk, hl, hfirst⟩ := e.first (OfTask j) ex
  have hk' := stay k hk hfirst
  rcases (e.view k).task hk' with ⟨h1, _⟩ | ⟨_, t', h1, _, h2⟩
  · exact absurd hl h1
  · exact ⟨k + 1, t', by omega, h1, h2⟩

/-- Every free goroutine ends. -/
theorem WExecution.task_ends {cfg : Config} {e : WExecution cfg} (hf : e.Fair) {n j : Nat} (hj : j < (e.at_ n).frees.length) :
    ∃ k, n ≤ k ∧ ∀ k', k ≤ k' → ∃ t, (e.at_ k').frees[j]? = some t ∧ t.weight = 0 := by
  have go : ∀ w n t, (e.at_ n).frees[j]? = some t → t.weight = w → ∃ k t, n ≤ k ∧ (e.at_ k).frees[j]? = some t ∧ t.weight = 0 := by
    intro w
    induction w using Nat.strongRecOn with
    | _ w ih =>
      intro n t ht hw
      by_cases h0 : t.weight = 0
      · exact ⟨n, t, Nat.le_refl _, ht, h0⟩
      · obtain ⟨k, t', hk, ht', hlt⟩ := WExecution.task_moves hf ht h0
        obtain ⟨k', t'', hk', h⟩ := ih _ (hw ▸ hlt) k t' ht' rfl
        exact ⟨k', t'', by omega, h⟩
  obtain ⟨k, t, hk, ht, h0⟩ := go _ n _ (List.getElem?_eq_getElem hj) rfl
  refine ⟨k, hk, e.keeps (P := fun m => ∃ t, m.frees[j]? = some t ∧ t.weight = 0) ?_ ⟨t, ht, h0⟩⟩
  rintro m m' l _ ⟨t, ht, h0⟩ hs
  rcases hs.task ht with ⟨_, h1⟩ | ⟨_, t', _, _, h2⟩
  · exact ⟨t, h1, h0⟩
  · omega

theorem WExecution.tasks_end {cfg : Config} {e : WExecution cfg} (hf : e.Fair) {n : Nat} : ∀ f, f ≤ (e.at_ n).frees.length →
    ∃ k, n ≤ k ∧ ∀ k', k ≤ k' → ∀ j, j < f → ∃ t, (e.at_ k').frees[j]? = some t ∧ t.weight = 0 := by
  intro f
  induction f with
  | zero => exact fun _ => ⟨n, Nat.le_refl _, fun _ _ j hj => absurd hj (by omega)⟩
  | succ f ih =>
    intro hle
    obtain ⟨k, hk, h⟩ := ih (by omega)
    obtain ⟨k2, hk2, h2⟩ := WExecution.task_ends hf (n := n) (j := f) (by omega)
    refine ⟨max k k2, by omega, fun k' hk' j hj => ?_⟩
    rcases Nat.lt_or_ge j f with hjf | hjf
    · exact h k' (by omega) j hjf
    · obtain rfl : j = f := by omega
      exact h2 k' (by omega)

/-! ### Instances that have been superseded -/

theorem Gone.wstep {cfg : Config} (hcfg : cfg.OK) {i f : Nat} {m m' : Machine} {l : WLabel} (hr : WReachable cfg m L) (h : Gone i f m) (hs : WStep cfg m l m') : Gone i f m' := by
  obtain ⟨rel, hi⟩ := winv hcfg hr
  have hlt : i < m.next := hi.inv.regsLt i (List.mem_append_left _ h.reg)
  have hsnd : ∀ om, m.current = some om → SoundManager m.next om := fun om ho => (hi.inv.cur om ho).1
  have hregs : ∀ e, i ∈ (m.log e).regs := fun e => by rw [regs_log]; exact List.mem_append_left _ h.reg
  cases hs with
  | go l m' hn =>
    cases hn with
    | go l m' st nr => exact h.step hcfg hlt hsnd st
    | refused k env hk => exact ⟨hregs _, h.cur, h.le, h.tasks, h.run⟩
    | call k env hk run =>
      obtain ⟨_, rel, hsh, _⟩ := planNil_shape (env := env) (k := k) hcfg hsnd hk
      exact h.call hsh hlt hsnd
    | ret r run todo phase => exact ⟨hregs (.returned r.kind r.res), h.cur, h.le, h.tasks, fun r' hr' => by cases hr'⟩
  | hook r a rest run phase todo may => exact ⟨hregs (.act a), h.cur, h.le, h.tasks, fun r' hr' => by cases hr'⟩
  | cleanup r j run phase => exact ⟨hregs (.freeEnd j), h.cur, h.le, h.tasks, fun r' hr' => by cases hr'⟩
  | free t x y frees j phase =>
    have hle := h.le
    have ht := h.tasks
    rw [frees] at hle ht
    exact ⟨hregs (.freeEnd j), h.cur, by simpa [Machine.log] using hle, drop_mid ht (fun h => ⟨by simp, by simp [Phase.insts]⟩), h.run⟩

/-- What is superseded is lost or freed. -/
theorem WExecution.freed {cfg : Config} (hcfg : cfg.OK) (hst : cfg.static = none) {e : WExecution cfg} (hf : e.Fair) {n i : Nat}
    (hr : (e.at_ n).running = none) (hreg : i ∈ (e.at_ n).regs) (hc : i ∉ (e.at_ n).currentInsts) (hL : ∀ k, i ∉ e.lost k) :
    e.Eventually (fun m => m.begins.count i = 1 ∧ m.ends.count i = 1) := by
  obtain ⟨k, hk, h⟩ := WExecution.tasks_end hf (n := n) _ (Nat.le_refl _)
  have hg := e.keeps (P := Gone i (e.at_ n).frees.length) (fun m m' l hreach h hs => by
    obtain ⟨L, hreach⟩ := hreach
    exact h.wstep hcfg hreach hs) (Gone.start hreg hc hr)
  refine ⟨k, fun k' hk' => ?_⟩
  obtain ⟨rel, hi⟩ := winv hcfg (e.reachable k')
  exact (hg k' (by omega)).freed hst hi.inv (hL k') (h k' hk')

end Hotswap
