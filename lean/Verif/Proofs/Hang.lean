import Verif.Proofs.Goexit
import Verif.Proofs.Drain
import Verif.Spec.Hang

/-! Executions in which some goroutines make no step. -/

namespace Hotswap

variable [GoRuntime] {cfg : Config} {H : Hung}

omit [GoRuntime] in
theorem get_other {α : Type} {x y : List α} {t t' : α} {n : Nat} (h : n ≠ x.length) : (x ++ t' :: y)[n]? = (x ++ t :: y)[n]? := by
  rcases Nat.lt_or_gt_of_ne h with h | h
  · rw [List.getElem?_append_left h, List.getElem?_append_left h]
  · rw [List.getElem?_append_right (by omega), List.getElem?_append_right (by omega)]
    obtain ⟨k, hk⟩ := Nat.exists_eq_add_of_lt h
    have : n - x.length = k + 1 := by omega
    rw [this, List.getElem?_cons_succ, List.getElem?_cons_succ]

/-- Nobody else touches what a free goroutine has still to do. -/
theorem Step.frees_other {m m' : Machine} {l : Label} (hs : Step cfg m l m') {n : Nat} (hl : l ≠ .free n) {t : FreeTask} (ht : m.frees[n]? = some t) : m'.frees[n]? = some t := by
  cases hs with
  | act r a rest run phase todo plain =>
    change ((m.log (.act a)).perform cfg a).frees[n]? = some t
    cases a with
    | spawnFree om =>
      change (m.frees ++ _)[n]? = some t
      obtain ⟨hn, _⟩ := List.getElem?_eq_some_iff.mp ht
      rw [List.getElem?_append_left hn]; exact ht
    | _ => exact ht
  | freeDec t0 x y frees phase i rest todo due =>
    have hne : n ≠ x.length := fun he => hl (by rw [he])
    exact (get_other hne).trans (frees ▸ ht)
  | freeSkip t0 x y frees i phase once =>
    have hne : n ≠ x.length := fun he => hl (by rw [he])
    exact (get_other hne).trans (frees ▸ ht)
  | freeBegin t0 x y frees i phase once =>
    have hne : n ≠ x.length := fun he => hl (by rw [he])
    exact (get_other hne).trans (frees ▸ ht)
  | freeEnd t0 x y frees i phase =>
    have hne : n ≠ x.length := fun he => hl (by rw [he])
    exact (get_other hne).trans (frees ▸ ht)
  | _ => exact ht

/-- While a call holds the lock, only its own steps change what it, `Current()` and `ReloadCounter()` depend on. -/
theorem Step.run_other {m m' : Machine} {l : Label} (hs : Step cfg m l m') {r : Running} (hr : m.running = some r) (h1 : l ≠ .act) (h2 : l ≠ .ret) :
    m'.running = m.running ∧ m'.current = m.current ∧ m'.counter = m.counter ∧ m'.pending = m.pending ∧ lastCallActs m'.trace = lastCallActs m.trace ∧
    m'.regs = m.regs := by
  cases hs with
  | call k env h run => rw [run] at hr; cases hr
  | act => exact absurd rfl h1
  | release => exact absurd rfl h1
  | runSkip => exact absurd rfl h1
  | runBegin => exact absurd rfl h1
  | runEnd => exact absurd rfl h1
  | ret => exact absurd rfl h2
  | refused k env h => exact ⟨rfl, rfl, rfl, rfl, lastCallActs_log _ _ _, by rw [regs_log]; simp⟩
  | freeDec => exact ⟨rfl, rfl, rfl, rfl, rfl, rfl⟩
  | freeSkip => exact ⟨rfl, rfl, rfl, rfl, rfl, rfl⟩
  | freeBegin t x y frees i phase once =>
    refine ⟨rfl, rfl, rfl, rfl, lastCallActs_log _ _ _, ?_⟩
    exact (regs_congr (m := m.log (.freeBegin i)) rfl).trans (by rw [regs_log]; simp)
  | freeEnd t x y frees i phase =>
    refine ⟨rfl, rfl, rfl, rfl, lastCallActs_log _ _ _, ?_⟩
    exact (regs_congr (m := m.log (.freeEnd i)) rfl).trans (by rw [regs_log]; simp)
  | tick d => exact ⟨rfl, rfl, rfl, rfl, rfl, rfl⟩
  | read => exact ⟨rfl, rfl, rfl, rfl, lastCallActs_log _ _ _, by rw [regs_log]; simp⟩
  | readCounter => exact ⟨rfl, rfl, rfl, rfl, lastCallActs_log _ _ _, by rw [regs_log]; simp⟩

theorem Hung.Later.trans {m m' m'' : Machine} (h1 : H.Later cfg m m') (h2 : H.Later cfg m' m'') : H.Later cfg m m'' := by
  induction h2 with
  | refl => exact h1
  | step l _ ha hs ih => exact .step l ih ha hs

theorem Hung.Later.reach {m m' : Machine} (h : Reachable cfg m) (hl : H.Later cfg m m') : Reachable cfg m' := by
  induction hl with
  | refl => exact h
  | step l _ _ hs ih => exact .step l ih hs

theorem Hung.Later.task {m m' : Machine} (hl : H.Later cfg m m') {n : Nat} (hn : n ∈ H.frees) {t : FreeTask} (ht : m.frees[n]? = some t) : m'.frees[n]? = some t := by
  induction hl with
  | refl => exact ht
  | step l _ ha hs ih => exact (step_view hs).frees_other (fun he => by subst he; exact ha hn) ih

theorem Hung.Later.call {m m' : Machine} (hl : H.Later cfg m m') (hc : H.call = true) {r : Running} (hr : m.running = some r) :
    m'.running = some r ∧ m'.current = m.current ∧ m'.counter = m.counter ∧ m'.pending = m.pending ∧ lastCallActs m'.trace = lastCallActs m.trace ∧ m'.regs = m.regs := by
  induction hl with
  | refl => exact ⟨hr, rfl, rfl, rfl, rfl, rfl⟩
  | step l _ ha hs ih =>
    obtain ⟨a1, a2, a3, a4, a5, a6⟩ := ih
    obtain ⟨b1, b2, b3, b4, b5, b6⟩ := (step_view hs).run_other a1
      (fun he => by subst he; exact absurd (hc.symm.trans ha) (by decide)) (fun he => by subst he; exact absurd (hc.symm.trans ha) (by decide))
    exact ⟨b1.trans a1, b2.trans a2, b3.trans a3, b4.trans a4, b5.trans a5, b6.trans a6⟩

/-- The hanging goroutines are where they were. -/
theorem Hung.At.later {m m' : Machine} (hat : H.At m) (hl : H.Later cfg m m') : H.At m' := by
  refine ⟨fun hc => ?_, fun n hn => ?_⟩
  · obtain ⟨r, hr, hu⟩ := hat.call hc
    exact ⟨r, (hl.call hc hr).1, hu⟩
  · obtain ⟨t, i, ht, hp⟩ := hat.frees n hn
    exact ⟨t, i, hl.task hn ht, hp⟩

/-- They hold what they held. -/
theorem Hung.holding_later {m m' : Machine} (hat : H.At m) (hl : H.Later cfg m m') : H.holding m' = H.holding m := by
  unfold Hung.holding
  congr 1
  · cases hc : H.call with
    | false => rfl
    | true =>
      obtain ⟨r, hr, _⟩ := hat.call hc
      rw [(hl.call hc hr).2.2.2.2.1]
  · rw [List.flatMap_def, List.flatMap_def]
    congr 1
    refine List.map_congr_left (fun n hn => ?_)
    obtain ⟨t, i, ht, hp⟩ := hat.frees n hn
    rw [hl.task hn ht, ht]

theorem Reachable.x {m : Machine} (h : Reachable cfg m) : XReachable cfg m [] := by
  induction h with
  | init => exact .init
  | step l _ hs ih => exact .step (.go l) ih hs

/-- What the running call has entered in its manager is what it holds. -/
theorem held_owed (hcfg : cfg.OK) {m : Machine} (h : Reachable cfg m) {r : Running} (hr : m.running = some r) : r.held = owed (lastCallActs m.trace) :=
  ((xinv hcfg h.x).call r hr).held

/-- What the hanging goroutines hold is referenced. -/
theorem holding_holds (hcfg : cfg.OK) {m : Machine} (h : Reachable cfg m) (hat : H.At m) {i : Nat} (hi : i ∈ H.holding m) : i ∈ m.holds := by
  unfold Hung.holding at hi
  unfold Machine.holds
  simp only [List.mem_append] at hi ⊢
  rcases hi with hi | hi
  · cases hc : H.call with
    | false => rw [hc] at hi; cases hi
    | true =>
      rw [hc] at hi
      obtain ⟨r, hr, _⟩ := hat.call hc
      rw [hr]
      have hi' : i ∈ r.held := by rw [held_owed hcfg h hr]; exact hi
      exact .inr (.inr (.inl hi'))
  · obtain ⟨n, hn, hi⟩ := List.mem_flatMap.mp hi
    obtain ⟨t, j, ht, hp⟩ := hat.frees n hn
    rw [ht] at hi
    exact .inl (List.mem_flatMap.mpr ⟨t, List.mem_of_getElem? ht, hi⟩)

/-- A free goroutine whose delay is over can always take its next step, until it is done. -/
theorem free_step_at {m : Machine} {n : Nat} {t : FreeTask} (ht : m.frees[n]? = some t) (hb : t.todo ≠ [] ∨ t.phase ≠ .idle) (hd : t.due ≤ m.now) :
    ∃ m', Step cfg m (.free n) m' ∧ m'.weight < m.weight := by
  obtain ⟨x, y, hf, rfl, _⟩ := split_at ht
  cases hp : t.phase with
  | zero i =>
    cases ho : m.once i with
    | true =>
      refine ⟨_, .freeSkip t x y hf i hp ho, ?_⟩
      simp [Machine.weight, FreeTask.weight, hf, hp, Phase.weight]
    | false =>
      refine ⟨_, .freeBegin t x y hf i hp ho, ?_⟩
      simp [Machine.weight, FreeTask.weight, hf, hp, Phase.weight, Machine.log]
  | inside i =>
    refine ⟨_, .freeEnd t x y hf i hp, ?_⟩
    simp [Machine.weight, FreeTask.weight, hf, hp, Phase.weight, Machine.log]
  | idle =>
    cases htd : t.todo with
    | nil => exact absurd hb (by simp [htd, hp])
    | cons i rest =>
      refine ⟨_, .freeDec t x y hf hp i rest htd hd, ?_⟩
      have := weight_phase (m.refs i - 1 > 0) i
      simp only [Machine.weight, FreeTask.weight, hf, List.map_append, List.map_cons, List.sum_append, List.sum_cons, htd, hp, Phase.weight, List.length_cons] at this ⊢
      omega

theorem Hung.Later.of_steps {m m' : Machine} {ls : List Label} (hs : m.steps cfg ls = some m') (ha : ∀ l ∈ ls, H.allows l) : H.Later cfg m m' := by
  have go : ∀ (ls : List Label) (m1 : Machine), H.Later cfg m m1 → m1.steps cfg ls = some m' → (∀ l ∈ ls, H.allows l) → H.Later cfg m m' := by
    intro ls
    induction ls with
    | nil => intro m1 h1 h2 _; simp [Machine.steps] at h2; exact h2 ▸ h1
    | cons l r ih =>
      intro m1 h1 h2 h3
      unfold Machine.steps at h2
      cases hl : m1.step cfg l with
      | none => rw [hl] at h2; cases h2
      | some m2 => rw [hl] at h2; exact ih m2 (.step l h1 (h3 l (by simp)) hl) h2 (fun x hx => h3 x (List.mem_cons_of_mem _ hx))
  exact go ls m .refl hs ha

/-- Everything that does not hang can be brought to its end. -/
theorem hung_drain (H : Hung) (n : Nat) : ∀ m : Machine, m.weight = n → ∃ ls m', m.steps cfg ls = some m' ∧ H.Rest m' ∧ ∀ l ∈ ls, H.allows l ∧ l.isCall = false := by
  induction n using Nat.strongRecOn with
  | _ n ih =>
    intro m hm
    have go : ∀ {ls m1}, m.steps cfg ls = some m1 → (∀ l ∈ ls, H.allows l ∧ l.isCall = false) → m1.weight < m.weight →
        ∃ ls m', m.steps cfg ls = some m' ∧ H.Rest m' ∧ ∀ l ∈ ls, H.allows l ∧ l.isCall = false := by
      intro ls m1 h1 h2 h3
      obtain ⟨ls', m', h4, h5, h6⟩ := ih _ (hm ▸ h3) m1 rfl
      refine ⟨ls ++ ls', m', steps_append h1 h4, h5, ?_⟩
      intro l hl
      rcases List.mem_append.mp hl with hl | hl
      · exact h2 l hl
      · exact h6 l hl
    by_cases hc : H.call = false ∧ ∃ r, m.running = some r
    · obtain ⟨hc, r, hr⟩ := hc
      obtain ⟨l, m1, hl, hs, hw⟩ := run_step (cfg := cfg) hr
      refine go (steps_one hs) ?_ hw
      intro x hx; simp at hx; subst hx
      rcases hl with rfl | rfl <;> exact ⟨hc, rfl⟩
    · by_cases hq : ∀ k t, k ∉ H.frees → m.frees[k]? = some t → t.todo = [] ∧ t.phase = .idle
      · refine ⟨[], m, rfl, ⟨fun hcall => ?_, hq⟩, by simp⟩
        cases hr : m.running with
        | none => rfl
        | some r => exact absurd ⟨hcall, r, hr⟩ hc
      · obtain ⟨k, hk⟩ := Classical.not_forall.mp hq
        obtain ⟨t, hk⟩ := Classical.not_forall.mp hk
        obtain ⟨hk, hk'⟩ := Classical.not_imp.mp hk
        obtain ⟨ht, hb⟩ := Classical.not_imp.mp hk'
        have hb' : t.todo ≠ [] ∨ t.phase ≠ .idle := by
          by_cases h1 : t.todo = []
          · exact .inr (fun h2 => hb ⟨h1, h2⟩)
          · exact .inl h1
        have htick : Step cfg m (.tick t.due) { m with now := m.now + t.due } := .tick t.due
        obtain ⟨m1, hs, hw⟩ := free_step_at (cfg := cfg) (m := { m with now := m.now + t.due }) (n := k) (t := t) ht hb' (Nat.le_add_left _ _)
        refine go (steps_append (steps_one htick) (steps_one hs)) ?_ hw
        intro x hx; simp at hx
        rcases hx with rfl | rfl
        · exact ⟨trivial, rfl⟩
        · exact ⟨hk, rfl⟩

end Hotswap
