import Verif.Proofs.InvAll

/-! Every plugin function is called at most once per instance, in the documented order. -/

namespace Hotswap

variable [GoRuntime]

def todoHooks (r : Option Running) : List (Nat × Hook) := (runTodo r).filterMap hookOf

def HookLt (a b : Nat × Hook) : Prop := a.1 = b.1 → a.2.rank < b.2.rank

structure HookInv (m : Machine) : Prop where
  incr : (m.hooks ++ todoHooks m.running).Pairwise HookLt
  lt : ∀ e ∈ m.hooks ++ todoHooks m.running, e.1 < m.next
  sep : ∀ e ∈ todoHooks m.running, ∀ t ∈ m.frees, ∀ j ∈ t.phase.insts ++ t.todo, j < e.1

theorem hooks_log (m : Machine) (e : Ev) : (m.log e).hooks = m.hooks ++ (evHook e).toList := by
  simp only [Machine.hooks, Machine.log, Machine.events, List.map_append, List.filterMap_append]
  congr 1

theorem mem_begins_of_hook {m : Machine} {i : Nat} (h : (i, Hook.onFree) ∈ m.hooks) : i ∈ m.begins := by
  unfold Machine.hooks at h
  obtain ⟨e, he, hh⟩ := List.mem_filterMap.mp h
  unfold Machine.begins
  refine List.mem_filterMap.mpr ⟨e, he, ?_⟩
  cases e with
  | act a => cases a <;> simp [evHook, hookOf] at hh
  | freeBegin j => simp [evHook] at hh; subst hh; rfl
  | _ => simp [evHook] at hh

/-- The hooks of a plan. -/
theorem Shape.hooks {cfg : Config} {k : Kind} {old : Option Manager} {n0 : Nat} {p : Plan} (h : Shape cfg k old n0 p) :
    (p.acts.filterMap hookOf).Pairwise HookLt ∧ ∀ e ∈ p.acts.filterMap hookOf, n0 ≤ e.1 ∧ e.1 < p.next := by
  have key : ∀ pre tail, p.acts = pre ++ tail → (∀ a ∈ tail, a.stage = 7) → Log old n0 p.next pre →
      (p.acts.filterMap hookOf).Pairwise HookLt ∧ ∀ e ∈ p.acts.filterMap hookOf, n0 ≤ e.1 ∧ e.1 < p.next := by
    intro pre tail ha ht hl
    have h0 : tail.filterMap hookOf = [] := by
      rw [List.filterMap_eq_nil_iff]
      intro a ha
      have := ht a ha
      cases a <;> simp [Act.stage] at this <;> rfl
    rw [ha, List.filterMap_append, h0, List.append_nil]
    constructor
    · rw [List.pairwise_filterMap]
      refine hl.incr.imp ?_
      intro a b hab e he e' he' hee
      exact hab e.1 e.2 e'.2 he (by rw [hee]; exact he')
    · intro e he
      obtain ⟨a, ha, hh⟩ := List.mem_filterMap.mp he
      exact hl.range a ha e.1 e.2 hh
  cases h with
  | failed pre rel acts res log stage acq nodup built origin => exact key pre _ acts (stage_release rel) log
  | ok pre acts d res log stage acq good origin => exact key pre _ acts stage_tail log
  | noop acts d res built => exact key [] _ (by simpa using acts) stage_count ⟨by simp, by simp [HooksIncr], by simp, by simp, by simp⟩

theorem HookInv.same {m m' : Machine} (h : HookInv m) (hh : m'.hooks = m.hooks) (ht : todoHooks m'.running = todoHooks m.running) (hn : m'.next = m.next)
    (hf : ∀ t' ∈ m'.frees, ∃ t ∈ m.frees, (t'.phase.insts ++ t'.todo) ⊆ (t.phase.insts ++ t.todo)) : HookInv m' := by
  refine ⟨?_, ?_, ?_⟩
  · rw [hh, ht]; exact h.incr
  · rw [hh, ht, hn]; exact h.lt
  · rw [ht]
    intro e he t' ht' j hj
    obtain ⟨t, h1, h2⟩ := hf t' ht'
    exact h.sep e he t h1 j (h2 hj)

theorem HookInv.begin {m m' : Machine} (h : HookInv m) {i : Nat} (hb : i ∉ m.begins) (hlt : i < m.next) (hsep : ∀ e ∈ todoHooks m.running, i < e.1)
    (hh : m'.hooks = m.hooks ++ [(i, .onFree)]) (ht : todoHooks m'.running = todoHooks m.running) (hn : m'.next = m.next)
    (hf : ∀ t' ∈ m'.frees, ∃ t ∈ m.frees, (t'.phase.insts ++ t'.todo) ⊆ (t.phase.insts ++ t.todo)) : HookInv m' := by
  refine ⟨?_, ?_, ?_⟩
  · rw [hh, ht]
    have hi := h.incr
    rw [List.pairwise_append] at hi ⊢
    obtain ⟨h1, h2, h3⟩ := hi
    refine ⟨?_, h2, ?_⟩
    · rw [List.pairwise_append]
      refine ⟨h1, by simp, ?_⟩
      intro a ha b hb' hab
      simp at hb'
      subst hb'
      obtain ⟨j, g⟩ := a
      simp only at hab
      subst hab
      cases g with
      | onFree => exact absurd (mem_begins_of_hook ha) hb
      | _ => simp [Hook.rank]
    · intro a ha b hb'
      rcases List.mem_append.mp ha with ha | ha
      · exact h3 a ha b hb'
      · simp at ha
        subst ha
        intro hab
        have := hsep b hb'
        simp at hab; omega
  · rw [hh, ht, hn]
    intro e he
    simp only [List.mem_append, List.mem_singleton] at he
    rcases he with (he | rfl) | he
    · exact h.lt e (List.mem_append_left _ he)
    · exact hlt
    · exact h.lt e (List.mem_append_right _ he)
  · rw [ht]
    intro e he t' ht' j hj
    obtain ⟨t, h1, h2⟩ := hf t' ht'
    exact h.sep e he t h1 j (h2 hj)

/-- The running call performs an action and frees are untouched, or no hook remains. -/
theorem HookInv.act {m m' : Machine} (h : HookInv m) {a : Act} (hh : m'.hooks = m.hooks ++ (hookOf a).toList)
    (ht : todoHooks m.running = (hookOf a).toList ++ todoHooks m'.running) (hn : m'.next = m.next)
    (hf : m'.frees = m.frees ∨ todoHooks m'.running = []) : HookInv m' := by
  have e : m'.hooks ++ todoHooks m'.running = m.hooks ++ todoHooks m.running := by rw [hh, ht, List.append_assoc]
  refine ⟨?_, ?_, ?_⟩
  · rw [e]; exact h.incr
  · rw [e, hn]; exact h.lt
  · intro x hx
    rcases hf with hf | hf
    · rw [hf]
      exact h.sep x (by rw [ht]; exact List.mem_append_right _ hx)
    · rw [hf] at hx; cases hx

theorem todoHooks_cons {r : Running} {a : Act} {rest : List Act} (h : r.todo = a :: rest) :
    todoHooks (some r) = (hookOf a).toList ++ rest.filterMap hookOf := by
  simp only [todoHooks, runTodo, h, List.filterMap_cons]
  cases hookOf a <;> rfl

theorem perform_frees {cfg : Config} {m : Machine} {a : Act} (h : ∀ om, a ≠ .spawnFree om) : (m.perform cfg a).frees = m.frees := by
  cases a <;> first | rfl | exact absurd rfl (h _)

theorem perform_trace {cfg : Config} {m : Machine} {a : Act} : (m.perform cfg a).trace = m.trace := by
  cases a <;> rfl

theorem perform_next {cfg : Config} {m : Machine} {a : Act} : (m.perform cfg a).next = m.next := by
  cases a <;> rfl

theorem hooks_congr {m m' : Machine} (h : m'.trace = m.trace) : m'.hooks = m.hooks := by simp [Machine.hooks, Machine.events, h]

/-- After the start of the delayed free only publication and counting remain. -/
theorem InvL.after_spawn {cfg : Config} {m : Machine} {L : List Nat} (h : InvL L cfg m) {r : Running} {om : Manager} {rest : List Act} (hrun : m.running = some r)
    (htodo : r.todo = .spawnFree om :: rest) :
    ∃ new d, m.current = some om ∧ rest = .publish new :: countActs r.kind ∧ cfg.static.isSome = false ∧ m.pending = none ∧ r.res = .ok d ∧ r.held.Perm new.insts ∧ r.phase = .idle := by
  cases h.run r hrun with
  | fail pre rel todo held idle res pending stage incs order =>
    rw [htodo] at todo
    rcases cons_of_append todo.symm with ⟨pre', rfl, hr⟩ | ⟨_, hr⟩
    · have := stage _ (List.mem_cons_self ..); simp [Act.stage] at this
    · cases rel <;> simp at hr
  | ok pre new todo held idle d res pending stage incs good built =>
    rw [htodo] at todo
    rcases cons_of_append todo.symm with ⟨pre', rfl, hr⟩ | ⟨hpre, hr⟩
    · have := stage _ (List.mem_cons_self ..); simp [Act.stage] at this
    · subst hpre
      cases hst : cfg.static.isSome with
      | true => rw [hst] at hr; simp at hr
      | false =>
        rw [hst] at hr
        cases hc : m.current with
        | none => simp [hc, spawnActs] at hr
        | some om' =>
          simp [hc, spawnActs] at hr
          obtain ⟨rfl, hr⟩ := hr
          exact ⟨new, d, rfl, hr.symm, rfl, pending, res, by simpa [acquired] using held, idle⟩
  | spawned new dyn todo held idle d res pending good built => rw [htodo] at todo; simp at todo
  | last todo held idle d res pending =>
    rw [htodo] at todo
    rcases todo with todo | todo
    · cases hk : r.kind <;> rw [hk] at todo <;> simp [countActs] at todo
    · cases todo

theorem HookInv.init : HookInv Machine.init := by
  refine ⟨?_, ?_, ?_⟩
  · simp [Machine.init, Machine.hooks, Machine.events, todoHooks, runTodo]
  · simp [Machine.init, Machine.hooks, Machine.events, todoHooks, runTodo]
  · simp [Machine.init]

/-- The start of a call with the plan `p`. -/
theorem HookInv.callPlan {cfg : Config} {m : Machine} {L : List Nat} (hinv : InvL L cfg m) (ih : HookInv m) {k : Kind} {p : Plan} (hs : Shape cfg k m.current m.next p)
    (hle : m.next ≤ p.next) : HookInv { m.log (.called k) with
          next := p.next
          builts := p.built :: m.builts
          running := some { kind := k, todo := p.acts, res := p.res, phase := .idle, held := [] } } := by
  obtain ⟨h1, h2⟩ := hs.hooks
  have hh : (m.log (.called k)).hooks = m.hooks := by rw [hooks_log]; simp [evHook]
  have h0 : m.hooks.Pairwise HookLt ∧ ∀ e ∈ m.hooks, e.1 < m.next :=
    ⟨(List.pairwise_append.mp ih.incr).1, fun e he => ih.lt e (List.mem_append_left _ he)⟩
  refine ⟨?_, ?_, ?_⟩
  · change ((m.log (.called k)).hooks ++ _).Pairwise HookLt
    rw [hh, List.pairwise_append]
    refine ⟨h0.1, h1, ?_⟩
    intro a ha b hb hab
    have := h0.2 a ha
    have := (h2 b hb).1
    omega
  · change ∀ e ∈ (m.log (.called k)).hooks ++ _, e.1 < p.next
    rw [hh]
    intro e he
    rcases List.mem_append.mp he with he | he
    · have := h0.2 e he; omega
    · exact (h2 e he).2
  · intro e he t ht j hj
    obtain ⟨pm, _, hs, hsuf⟩ := hinv.frees t ht
    have := hs.fresh j (hs.release_perm.mem_iff.mp (hsuf.subset hj))
    have := (h2 e he).1
    omega

theorem HookInv.step {cfg : Config} (hcfg : cfg.OK) {m m' : Machine} {l : Label} {L : List Nat} (hinv : InvL L cfg m) (ih : HookInv m) (hs : Step cfg m l m') : HookInv m' := by
  have hrefl : ∀ t' ∈ m.frees, ∃ t ∈ m.frees, (t'.phase.insts ++ t'.todo) ⊆ (t.phase.insts ++ t.todo) := fun t ht => ⟨t, ht, fun _ h => h⟩
  have hmid : ∀ {t t' : FreeTask} {x y : List FreeTask}, m.frees = x ++ t :: y → (t'.phase.insts ++ t'.todo) ⊆ (t.phase.insts ++ t.todo) →
      ∀ u ∈ x ++ t' :: y, ∃ v ∈ m.frees, (u.phase.insts ++ u.todo) ⊆ (v.phase.insts ++ v.todo) := by
    intro t t' x y hf hsub u hu
    rw [hf]
    rcases List.mem_append.mp hu with hu | hu
    · exact ⟨u, List.mem_append_left _ hu, fun _ h => h⟩
    · rcases List.mem_cons.mp hu with rfl | hu
      · exact ⟨t, by simp, hsub⟩
      · exact ⟨u, by simp [hu], fun _ h => h⟩
  have hbegin : ∀ {i}, i ∈ m.zs → i ∉ m.begins ∧ i < m.next := by
    intro i hi
    obtain ⟨h1, _, h3⟩ := hinv.core.zero i hi
    refine ⟨?_, hinv.regsLt i (List.mem_append_left _ h1)⟩
    intro hm
    have := hinv.core.begins_eq i
    rw [h3] at this
    have := List.count_pos_iff.mpr hm
    simp_all
  cases hs with
  | refused k env hr => exact ih.same (by rw [hooks_log]; simp [evHook]) rfl rfl hrefl
  | call k env hr run =>
    have hv := plan_view (env := env) (k := k) (old := m.current) (n0 := m.next) hcfg (fun om ho => (hinv.cur om ho).1)
    exact ih.callPlan hinv (hv.shape hr) hv.next_le
  | act r a rest run phase todo plain =>
    have hh : Machine.hooks { (m.log (.act a)).perform cfg a with
        running := some { r with todo := rest, held := heldAfter r.held a } } = m.hooks ++ (hookOf a).toList := by
      have : Machine.hooks { (m.log (.act a)).perform cfg a with
        running := some { r with todo := rest, held := heldAfter r.held a } } = (m.log (.act a)).hooks := hooks_congr perform_trace
      rw [this, hooks_log]; rfl
    refine ih.act hh ?_ perform_next ?_
    · rw [run, todoHooks_cons todo]; rfl
    · by_cases hsp : ∃ om, a = .spawnFree om
      · right
        obtain ⟨om, rfl⟩ := hsp
        obtain ⟨new, d, _, hr, _⟩ := hinv.after_spawn run todo
        change rest.filterMap hookOf = []
        rw [hr]
        cases r.kind <;> rfl
      · left
        exact perform_frees (fun om e => hsp ⟨om, e⟩)
  | release r i rest run phase todo =>
    refine ih.act (a := .release i) ?_ ?_ rfl (.inl rfl)
    · change (m.log (.act (.release i))).hooks = _
      rw [hooks_log]; rfl
    · rw [run, todoHooks_cons todo]; rfl
  | runSkip r i run phase once => exact ih.same rfl (by rw [run]; rfl) rfl hrefl
  | runBegin r i run phase once =>
    obtain ⟨h1, h2⟩ := hbegin (mem_zs_run run phase)
    have hnil : todoHooks m.running = [] := by
      obtain ⟨rel, ht, _⟩ := hinv.releasing run (.inr (by simp [phase]))
      rw [run]
      simp only [todoHooks, runTodo, ht, List.filterMap_eq_nil_iff]
      intro a ha
      obtain ⟨j, _, rfl⟩ := List.mem_map.mp ha
      rfl
    refine ih.begin h1 h2 (by rw [hnil]; simp) ?_ (by rw [run]; rfl) rfl hrefl
    change (m.log (.freeBegin i)).hooks = _
    rw [hooks_log]; rfl
  | runEnd r i run phase =>
    refine ih.same ?_ (by rw [run]; rfl) rfl hrefl
    change (m.log (.freeEnd i)).hooks = _
    rw [hooks_log]; simp [evHook]
  | ret r run todo phase =>
    refine ih.same ?_ ?_ rfl hrefl
    · change (m.log (.returned r.kind r.res)).hooks = _
      rw [hooks_log]; simp [evHook]
    · rw [run]; simp [todoHooks, runTodo, todo]
  | freeDec t x y frees phase i rest todo due =>
    refine ih.same rfl rfl rfl (hmid frees ?_)
    simp only [phase, todo]
    split <;> intro j hj <;> simp [Phase.insts] at hj ⊢ <;> simp [hj]
  | freeSkip t x y frees i phase once =>
    refine ih.same rfl rfl rfl (hmid frees ?_)
    simp only [phase]
    intro j hj
    simp [Phase.insts] at hj ⊢; simp [hj]
  | freeBegin t x y frees i phase once =>
    have hm : t ∈ m.frees := by rw [frees]; simp
    obtain ⟨h1, h2⟩ := hbegin (mem_zs_free hm phase)
    refine ih.begin h1 h2 ?_ ?_ rfl rfl (hmid frees ?_)
    · intro e he
      exact ih.sep e he t hm i (by simp [phase, Phase.insts])
    · change (m.log (.freeBegin i)).hooks = _
      rw [hooks_log]; rfl
    · simp only [phase]
      intro j hj; simpa [Phase.insts] using hj
  | freeEnd t x y frees i phase =>
    refine ih.same ?_ rfl rfl (hmid frees ?_)
    · change (m.log (.freeEnd i)).hooks = _
      rw [hooks_log]; simp [evHook]
    · simp only [phase]
      intro j hj
      simp [Phase.insts] at hj ⊢; simp [hj]
  | tick d => exact ih.same rfl rfl rfl hrefl
  | read => exact ih.same (by rw [hooks_log]; simp [evHook]) rfl rfl hrefl
  | readCounter => exact ih.same (by rw [hooks_log]; simp [evHook]) rfl rfl hrefl

theorem hookInv {cfg : Config} (hcfg : cfg.OK) {m : Machine} (h : Reachable cfg m) : HookInv m :=
  Reachable.ind (P := HookInv) HookInv.init (fun _ _ _ hreach ih hs => ih.step hcfg (inv hcfg hreach) hs) h

omit [GoRuntime] in
/-- A list of hooks in strictly increasing rank is a sublist of the life cycle. -/
theorem sublist_lifecycle {l : List Hook} (h : l.Pairwise (fun a b => a.rank < b.rank)) : l.Sublist lifecycle := by
  have key : ∀ (l : List Hook) (n : Nat), l.Pairwise (fun a b => a.rank < b.rank) → (∀ g ∈ l, n ≤ g.rank) → l.Sublist (lifecycle.drop n) := by
    intro l
    induction l with
    | nil => simp
    | cons g r ih =>
      intro n hp hn
      rw [List.pairwise_cons] at hp
      have h1 := ih (g.rank + 1) hp.2 (fun x hx => hp.1 x hx)
      have h2 : (g :: r).Sublist (lifecycle.drop g.rank) := by
        have : lifecycle.drop g.rank = g :: lifecycle.drop (g.rank + 1) := by cases g <;> rfl
        rw [this]; exact h1.cons_cons g
      exact h2.trans (List.drop_sublist_drop_left _ (hn g (by simp)))
  simpa using key l 0 h (by simp)

theorem HookInv.hooksOf_sublist {m : Machine} (h : HookInv m) (i : Nat) : (m.hooksOf i).Sublist lifecycle := by
  have hp := (List.pairwise_append.mp h.incr).1
  refine sublist_lifecycle ?_
  unfold Machine.hooksOf
  rw [List.pairwise_map]
  have h2 := hp.filter (fun e => decide (e.1 = i))
  refine h2.imp_of_mem ?_
  intro a b ha hb hab
  simp at ha hb
  exact hab (ha.2.trans hb.2.symm)

/-- C03 as an invariant. -/
theorem hooksOf_sublist {cfg : Config} (hcfg : cfg.OK) {m : Machine} (h : Reachable cfg m) (i : Nat) : (m.hooksOf i).Sublist lifecycle :=
  (hookInv hcfg h).hooksOf_sublist i

end Hotswap
