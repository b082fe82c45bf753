import Verif.Proofs.NilHist
import Verif.Spec.Hostile

/-! The invariant of histories in which plugins misbehave in every way. -/

namespace Hotswap

variable [GoRuntime] {L : List Nat}

/-- The steps, one case each. -/
inductive WStep (cfg : Config) (m : Machine) : WLabel → Machine → Prop
  | go (l : NLabel) (m' : Machine) (h : NStep cfg m l m') : WStep cfg m (.go l) m'
  | hook (r : Running) (a : Act) (rest : List Act) (run : m.running = some r) (phase : r.phase = .idle) (todo : r.todo = a :: rest)
      (may : a.mayExit = true) : WStep cfg m .exitCall ((m.log (.act a)).drop r)
  | cleanup (r : Running) (i : Nat) (run : m.running = some r) (phase : r.phase = .inside i) :
      WStep cfg m .exitCall ((m.onFreeDone i).drop r)
  | free (t : FreeTask) (x y : List FreeTask) (frees : m.frees = x ++ t :: y) (i : Nat) (phase : t.phase = .inside i) :
      WStep cfg m (.exitFree x.length) { m.onFreeDone i with
        frees := x ++ { t with todo := [], phase := .idle } :: y
        abandoned := t.todo ++ m.abandoned }

theorem wstep_view {cfg : Config} {m m' : Machine} {l : WLabel} (h : m.wstep cfg l = some m') : WStep cfg m l m' := by
  cases l with
  | go l => exact .go l m' (nstep_view h)
  | exitCall =>
    have := xstep_view (cfg := cfg) (l := .exitCall) h
    generalize hl : XLabel.exitCall = xl at this
    cases this with
    | go l m' h => cases hl
    | hook r a rest run phase todo may => exact .hook r a rest run phase todo may
    | cleanup r i run phase => exact .cleanup r i run phase
    | free t x y frees i phase => cases hl
  | exitFree n =>
    have := xstep_view (cfg := cfg) (l := .exitFree n) h
    generalize hl : XLabel.exitFree n = xl at this
    cases this with
    | go l m' h => cases hl
    | hook r a rest run phase todo may => cases hl
    | cleanup r i run phase => cases hl
    | free t x y frees i phase => cases hl; exact .free t x y frees i phase

/-- What a call has still to do may be forgotten, or partly done. -/
theorem HookInv.cut {m m' : Machine} (h : HookInv m) (hs : (m'.hooks ++ todoHooks m'.running).Sublist (m.hooks ++ todoHooks m.running)) (ht : todoHooks m'.running ⊆ todoHooks m.running)
    (hn : m'.next = m.next) (hf : ∀ t' ∈ m'.frees, ∃ t ∈ m.frees, (t'.phase.insts ++ t'.todo) ⊆ (t.phase.insts ++ t.todo)) : HookInv m' := by
  refine ⟨h.incr.sublist hs, ?_, ?_⟩
  · rw [hn]; exact fun e he => h.lt e (hs.subset he)
  · intro e he t' ht' j hj
    obtain ⟨t, h1, h2⟩ := hf t' ht'
    exact h.sep e (ht he) t h1 j (h2 hj)

/-- More may be lost. -/
theorem DelayInv.lose {cfg : Config} {m m' : Machine} (h : DelayInv cfg m) (z : List Nat) (hm : m' = { m with abandoned := z }) (hz : ∀ i ∈ m.abandoned, i ∈ z) : DelayInv cfg m' := by
  subst hm
  obtain ⟨d1, d2, d3, d4, d5⟩ := h
  refine ⟨d1, d2, d3, d4, ?_⟩
  intro hst
  obtain ⟨e1, e2, e3⟩ := d5 hst
  refine ⟨e1, e2, ?_⟩
  intro T pm hm i hi
  rcases List.mem_append.mp (e3 T pm hm i hi) with e | e
  · exact List.mem_append_left _ e
  · exact List.mem_append_right _ (hz i e)

/-- A free goroutine that has begun has waited. -/
def Started (m : Machine) : Prop := ∀ t ∈ m.frees, t.phase ≠ .idle → t.due ≤ m.now

theorem Step.started {cfg : Config} {m m' : Machine} {l : Label} (h : Started m) (hs : Step cfg m l m') : Started m' := by
  have mid : ∀ {x y : List FreeTask} {t t' : FreeTask}, m.frees = x ++ t :: y → t'.due = t.due → (t'.phase ≠ .idle → t.due ≤ m.now) → ∀ u ∈ x ++ t' :: y, u.phase ≠ .idle → u.due ≤ m.now := by
    intro x y t t' he hd ht u hu hp
    rcases List.mem_append.mp hu with hu | hu
    · exact h u (by rw [he]; exact List.mem_append_left _ hu) hp
    · rcases List.mem_cons.mp hu with rfl | hu
      · rw [hd]; exact ht hp
      · exact h u (by rw [he]; simp [hu]) hp
  have own : ∀ {x y : List FreeTask} {t : FreeTask}, m.frees = x ++ t :: y → t.phase ≠ .idle → t.due ≤ m.now := fun he hp => h _ (by rw [he]; simp) hp
  cases hs with
  | act r a rest run phase todo plain =>
    cases a with
    | spawnFree om =>
      intro u hu hp
      change u ∈ m.frees ++ [_] at hu
      rcases List.mem_append.mp hu with hu | hu
      · exact h u hu hp
      · simp at hu; subst hu; exact absurd rfl hp
    | _ => exact h
  | freeDec t x y frees phase i rest todo due => exact mid frees rfl (fun _ => due)
  | freeSkip t x y frees i phase once => exact mid frees rfl (fun _ => own frees (by rw [phase]; simp))
  | freeBegin t x y frees i phase once => exact mid frees rfl (fun _ => own frees (by rw [phase]; simp))
  | freeEnd t x y frees i phase => exact mid frees rfl (fun _ => own frees (by rw [phase]; simp))
  | tick d => exact fun u hu hp => Nat.le_trans (h u hu hp) (Nat.le_add_right ..)
  | _ => exact h

structure WInv (cfg : Config) (m : Machine) (L : List Nat) (rel : List Nat) : Prop extends NInv cfg m L rel where
  started : Started m

theorem WInv.step {cfg : Config} (hcfg : cfg.OK) {m m' : Machine} {l : WLabel} {rel : List Nat} (h : WInv cfg m L rel) (hs : WStep cfg m l m') : ∃ rel', WInv cfg m' (m.wLoses l ++ L) rel' := by
  cases hs with
  | go l m' hn =>
    obtain ⟨rel', h'⟩ := h.toNInv.step hcfg hn
    refine ⟨rel', ⟨h', ?_⟩⟩
    cases hn with
    | go l m' st nr => exact Step.started h.started st
    | refused k env hr => exact h.started
    | call k env hr run => exact h.started
    | ret r run todo phase => exact h.started
  | hook r a rest run phase todo may =>
    have hcall := h.call
    have hinv := h.inv
    rw [owing_some run] at hcall hinv
    have hl : m.wLoses .exitCall = r.held := (hcall _ rfl).held.symm
    rw [hl]
    have hlost : ∀ i, (r.held ++ L).count i ≤ (r.held ++ m.abandoned).count i := by
      intro i
      rw [List.count_append, List.count_append]
      exact Nat.add_le_add_left (h.lost i) _
    refine ⟨[], ⟨⟨?_, ?_, ?_, hlost, (by intro r' hr'; cases hr'), (by intro hne; exact absurd rfl hne)⟩, h.started⟩⟩
    · rw [owing_none rfl]
      exact hinv.exitHook (r := { r with todo := r.todo ++ rel.map Act.release }) (a := a) (rest := rest ++ rel.map Act.release) rfl phase (by rw [todo]; rfl) may
    · rw [owing_none rfl]
      have hh := h.hook
      have e1 : Machine.hooks ((m.log (.act a)).drop r) = m.hooks ++ (hookOf a).toList := hooks_log m (.act a)
      have e2 : todoHooks (m.owing rel).running = (hookOf a).toList ++ (rest ++ rel.map Act.release).filterMap hookOf := by
        rw [owing_some run]
        exact todoHooks_cons (r := { r with todo := r.todo ++ rel.map Act.release }) (by rw [todo]; rfl)
      refine hh.cut ?_ (by simp [todoHooks, runTodo, Machine.drop]) rfl (fun t ht => ⟨t, ht, fun _ h => h⟩)
      rw [e1, e2]
      have e3 : todoHooks ((m.log (.act a)).drop r).running = [] := rfl
      rw [e3, List.append_nil]
      exact List.Sublist.append (List.Sublist.refl _) (List.sublist_append_left ..)
    · rw [owing_none rfl]
      have hd := h.delay.same (m' := (m.owing rel).log (.act a)) (es := [(m.now, .act a)]) rfl (by
        intro e he b hb
        simp at he
        subst he
        cases hb
        cases a <;> first | (cases may; done) | simp) (fun t ht => ⟨t, ht, rfl, fun i hi => .inl hi⟩) (Nat.le_refl _) id rfl rfl (fun _ h => h) (Nat.le_refl _) rfl
      obtain ⟨d1, d2, d3, d4, d5⟩ := hd.lose (r.held ++ m.abandoned) rfl (fun i hi => List.mem_append_right _ hi)
      exact ⟨d1, d2, d3, d4, d5⟩
  | cleanup r i run phase =>
    have hcall := h.call
    have hinv := h.inv
    rw [owing_some run] at hcall hinv
    have hl : m.wLoses .exitCall = r.held := (hcall _ rfl).held.symm
    rw [hl]
    have hlost : ∀ i, (r.held ++ L).count i ≤ (r.held ++ m.abandoned).count i := by
      intro i
      rw [List.count_append, List.count_append]
      exact Nat.add_le_add_left (h.lost i) _
    refine ⟨[], ⟨⟨?_, ?_, ?_, hlost, (by intro r' hr'; cases hr'), (by intro hne; exact absurd rfl hne)⟩, h.started⟩⟩
    · rw [owing_none rfl]
      exact hinv.exitCleanup (r := { r with todo := r.todo ++ rel.map Act.release }) rfl phase
    · rw [owing_none rfl]
      have hh := h.hook
      have e1 : Machine.hooks ((m.onFreeDone i).drop r) = m.hooks ++ (evHook (.freeEnd i)).toList := hooks_log m (.freeEnd i)
      refine hh.cut ?_ (by simp [todoHooks, runTodo, Machine.drop]) rfl (fun t ht => ⟨t, ht, fun _ h => h⟩)
      rw [e1]
      have e3 : todoHooks ((m.onFreeDone i).drop r).running = [] := rfl
      rw [e3]
      simp only [evHook, Option.toList, List.append_nil]
      exact List.sublist_append_left ..
    · rw [owing_none rfl]
      have hd := h.delay.same (m' := (m.owing rel).log (.freeEnd i)) (es := [(m.now, .freeEnd i)]) rfl (by simp) (fun t ht => ⟨t, ht, rfl, fun i hi => .inl hi⟩) (Nat.le_refl _) id rfl rfl (fun _ h => h) (Nat.le_refl _) rfl
      obtain ⟨d1, d2, d3, d4, d5⟩ := hd.lose (r.held ++ m.abandoned) rfl (fun i hi => List.mem_append_right _ hi)
      exact ⟨d1, d2, d3, d4, d5⟩
  | free t x y frees i phase =>
    have hl : m.wLoses (.exitFree x.length) = t.todo := by simp [Machine.wLoses, Machine.loses, frees]
    rw [hl]
    have hdue : t.due ≤ m.now := h.started t (by rw [frees]; simp) (by rw [phase]; simp)
    have hfr : ∀ u' ∈ x ++ { t with todo := [], phase := .idle } :: y, ∃ u ∈ m.frees, (u'.phase.insts ++ u'.todo) ⊆ (u.phase.insts ++ u.todo) := by
      intro u' hu'
      rw [frees]
      rcases List.mem_append.mp hu' with hu | hu
      · exact ⟨u', List.mem_append_left _ hu, fun _ h => h⟩
      · rcases List.mem_cons.mp hu with rfl | hu
        · exact ⟨t, by simp, by simp [Phase.insts]⟩
        · exact ⟨u', by simp [hu], fun _ h => h⟩
    refine ⟨rel, ⟨⟨h.inv.exitFree frees phase, ?_, ?_, ?_, ?_, ?_⟩, ?_⟩⟩
    · refine h.hook.same ?_ rfl rfl hfr
      change (m.log (.freeEnd i)).hooks = m.hooks
      rw [hooks_log]; simp [evHook]
    · have hd := h.delay.same (m' := { (m.owing rel).log (.freeEnd i) with frees := x ++ { t with todo := [], phase := .idle } :: y }) (es := [(m.now, .freeEnd i)]) rfl (by simp)
        (fun u hu => by
          change u ∈ m.frees at hu
          rw [frees] at hu
          rcases List.mem_append.mp hu with hu | hu
          · exact ⟨u, List.mem_append_left _ hu, rfl, fun i hi => .inl hi⟩
          · rcases List.mem_cons.mp hu with rfl | hu
            · exact ⟨_, List.mem_append_right _ (List.mem_cons_self ..), rfl, fun _ _ => .inr hdue⟩
            · exact ⟨u, List.mem_append_right _ (List.mem_cons_of_mem _ hu), rfl, fun i hi => .inl hi⟩)
        (Nat.le_refl _) (fun he => by change m.frees = [] at he; rw [frees] at he; simp at he) rfl rfl (fun _ h => h) (Nat.le_refl _) rfl
      exact hd.lose (t.todo ++ m.abandoned) rfl (fun i hi => List.mem_append_right _ hi)
    · intro j
      change _ ≤ (t.todo ++ m.abandoned).count j
      rw [List.count_append, List.count_append]
      exact Nat.add_le_add_left (h.lost j) _
    · intro r' hr'
      exact (h.call r' hr').silent (lastCallActs_log _ _ _) rfl rfl rfl rfl
    · intro hne r' hr'
      have := h.panics hne r' hr'
      have e : lastCallActs (m.log (.freeEnd i)).trace = lastCallActs m.trace := lastCallActs_log _ _ _
      change _ ∧ ∀ a ∈ lastCallActs (m.log (.freeEnd i)).trace ++ r'.todo, _
      rw [e]; exact this
    · intro u hu hp
      change u ∈ x ++ _ :: y at hu
      rcases List.mem_append.mp hu with hu | hu
      · exact h.started u (by rw [frees]; exact List.mem_append_left _ hu) hp
      · rcases List.mem_cons.mp hu with rfl | hu
        · exact absurd rfl hp
        · exact h.started u (by rw [frees]; simp [hu]) hp

theorem winv {cfg : Config} (hcfg : cfg.OK) {m : Machine} (h : WReachable cfg m L) : ∃ rel, WInv cfg m L rel := by
  induction h with
  | init =>
    obtain ⟨rel, h⟩ := ninv hcfg (NReachable.init (cfg := cfg))
    exact ⟨rel, ⟨h, by intro t ht; cases ht⟩⟩
  | step l _ hs ih => obtain ⟨rel, ih⟩ := ih; exact ih.step hcfg (wstep_view hs)

end Hotswap
