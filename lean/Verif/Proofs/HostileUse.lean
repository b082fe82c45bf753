import Verif.Proofs.Hostile
import Verif.Proofs.Mids

/-! `Current()`, `ReloadCounter()` and the time for which a manager can be used, if plugins misbehave. -/

namespace Hotswap

variable [GoRuntime] {L : List Nat}

theorem lastPublished_other {m : Machine} {e : Ev} (he : ∀ pm, e ≠ .act (.publish pm)) : lastPublished (m.log e).trace = lastPublished m.trace := by
  change lastPublished (m.trace ++ [(m.now, e)]) = _
  unfold lastPublished
  rw [published_snoc_other he]

/-- `Current()` is the manager published last. -/
theorem wcurrent_eq {cfg : Config} {m : Machine} (h : WReachable cfg m L) : m.current = lastPublished m.trace := by
  induction h with
  | init => rfl
  | @step m m' L l hr hs ih =>
    cases wstep_view hs with
    | go l m' hn =>
      cases hn with
      | go l m' st nr => exact st.current_eq ih
      | refused k env hk => exact ih.trans (lastPublished_other (by simp)).symm
      | call k env hk run => exact ih.trans (lastPublished_other (e := .called k) (by simp)).symm
      | ret r run todo phase => exact ih.trans (lastPublished_other (e := .returned r.kind r.res) (by simp)).symm
    | hook r a rest run phase todo may => exact ih.trans (lastPublished_other (e := .act a) (fun pm e => by cases e; cases may)).symm
    | cleanup r i run phase => exact ih.trans (lastPublished_other (e := .freeEnd i) (by simp)).symm
    | free t x y frees i phase => exact ih.trans (lastPublished_other (e := .freeEnd i) (by simp)).symm

/-- A call that will succeed gives nothing back. -/
theorem InvL.ok_no_release {cfg : Config} {m : Machine} (h : InvL L cfg m) {r : Running} (hrun : m.running = some r) {d : Details} (hres : r.res = .ok d) (i : Nat) : Act.release i ∉ r.todo := by
  intro hm
  cases h.run r hrun with
  | fail pre rel todo held idle res pending stage incs order => exact res d hres
  | ok pre new todo held idle d res pending stage incs good built =>
    rw [todo] at hm
    rcases List.mem_append.mp hm with hm | hm
    · have := stage _ hm; simp [Act.stage] at this
    · rcases List.mem_append.mp hm with hm | hm
      · split at hm
        · cases hm
        · cases hc : m.current <;> rw [hc] at hm <;> simp [spawnActs] at hm
      · cases hk : r.kind <;> rw [hk] at hm <;> simp [countActs] at hm
  | spawned new dyn todo held idle d res pending good built =>
    rw [todo] at hm
    cases hk : r.kind <;> rw [hk] at hm <;> simp [countActs] at hm
  | last todo held idle d res pending =>
    rcases todo with todo | todo <;> rw [todo] at hm
    · cases hk : r.kind <;> rw [hk] at hm <;> simp [countActs] at hm
    · cases hm

/-- What is owed changes nothing about the counter. -/
theorem NInv.counted {cfg : Config} {m : Machine} {rel : List Nat} (h : NInv cfg m L rel) {r : Running} (hrun : m.running = some r) (todo : List Act) :
    hasCounted r.kind r.res (todo ++ rel.map Act.release) = hasCounted r.kind r.res todo := by
  cases hres : r.res with
  | ok d =>
    cases rel with
    | nil => simp
    | cons i rel =>
      exfalso
      have hi := h.inv
      rw [owing_some hrun] at hi
      exact hi.ok_no_release (r := { r with todo := r.todo ++ (i :: rel).map Act.release }) rfl hres i (by simp)
  | _ => rw [hasCounted_fail (by simp), hasCounted_fail (by simp)]

theorem Shape.not_counted {cfg : Config} {k : Kind} {old : Option Manager} {n0 : Nat} {p : Plan} {rel : List Nat} (h : Shape cfg k old n0 (p.plus rel)) : hasCounted k p.res p.acts = 0 := by
  by_cases hp : p.acts = []
  · cases h with
    | failed pre rel acts res log stage acq nodup built origin => exact hasCounted_fail res
    | ok pre acts d res log stage acq good origin =>
      exfalso
      have hm : Act.publish (p.plus rel).built ∈ (p.plus rel).acts := by rw [acts]; simp
      change _ ∈ p.acts ++ rel.map Act.release at hm
      rw [hp] at hm
      simp at hm
    | noop acts d res built =>
      cases k with
      | load => rfl
      | reload e =>
        exfalso
        have hm : Act.count ∈ (p.plus rel).acts := by rw [acts]; simp [countActs]
        change _ ∈ p.acts ++ rel.map Act.release at hm
        rw [hp] at hm
        simp at hm
  · exact hasCounted_cons hp

/-- `ReloadCounter()` is the number of reloads that have returned nil, and one more while a reload is about to. -/
theorem wcounter_eq {cfg : Config} (hcfg : cfg.OK) {m : Machine} (h : WReachable cfg m L) : m.counter = reloadsOk m.trace + inflight m.running := by
  induction h with
  | init => rfl
  | @step m m' L l hr hs ih =>
    obtain ⟨rel0, hx⟩ := winv hcfg hr
    have hsnd : ∀ om, m.current = some om → SoundManager m.next om := fun om ho => (hx.inv.cur om ho).1
    have plainEv : ∀ {e : Ev}, e.isReloadOk = false → reloadsOk (m.trace ++ [(m.now, e)]) = reloadsOk m.trace := by
      intro e he; rw [reloadsOk_snoc, he]; simp
    have plain : ∀ {m' : Machine} {e : Ev}, e.isReloadOk = false → m'.trace = m.trace ++ [(m.now, e)] → m'.counter = m.counter → inflight m'.running = inflight m.running →
        m'.counter = reloadsOk m'.trace + inflight m'.running := by
      intro m' e he h1 h2 h3
      rw [h1, h2, h3, plainEv he]; exact ih
    have started : ∀ {k : Kind} {p : Plan}, m.running = none → hasCounted k p.res p.acts = 0 → (m.start k p).counter = reloadsOk (m.start k p).trace + inflight (m.start k p).running := by
      intro k p hrun hp
      change m.counter = reloadsOk (m.trace ++ [(m.now, .called k)]) + hasCounted k p.res p.acts
      rw [plainEv rfl, hp, ih, hrun]
      rfl
    have ret : ∀ {r : Running} {z : List Nat}, m.running = some r → r.todo = [] → m.counter = reloadsOk (m.trace ++ [(m.now, .returned r.kind r.res)]) + 0 := by
      intro r z run todo
      rw [reloadsOk_snoc, ih, run, Nat.add_zero]
      congr 1
      change hasCounted r.kind r.res r.todo = _
      rw [todo]
      cases r.kind <;> cases r.res <;> rfl
    cases wstep_view hs with
    | go l m' hn =>
      cases hn with
      | refused k env hk => exact plain (e := .refused) rfl rfl rfl rfl
      | call k env hk run =>
        obtain ⟨_, rel, hsh, _⟩ := planNil_shape (env := env) (k := k) hcfg hsnd hk
        exact started run hsh.not_counted
      | ret r run todo phase => exact ret (z := []) run todo
      | go l m' st nr =>
        cases st with
        | refused k env hk => exact plain (e := .refused) rfl rfl rfl rfl
        | call k env hk run =>
          have hv := plan_view (env := env) (k := k) (old := m.current) (n0 := m.next) hcfg hsnd
          exact started run (Shape.not_counted (p := plan cfg env k m.current m.next) (rel := []) (by rw [Plan.plus_nil]; exact hv.shape hk))
        | act r a rest run phase todo hplain =>
          change (Machine.perform cfg (m.log (.act a)) a).counter = reloadsOk (Machine.perform cfg (m.log (.act a)) a).trace + hasCounted r.kind r.res rest
          rw [perform_trace]
          change _ = reloadsOk (m.trace ++ [(m.now, .act a)]) + _
          rw [plainEv rfl]
          rw [run] at ih
          have h0 : inflight (some r) = 0 := hasCounted_cons (by rw [todo]; simp)
          rw [h0, Nat.add_zero] at ih
          have hcnt : (Machine.perform cfg (m.log (.act a)) a).counter = m.counter + a.counts := by cases a <;> rfl
          rw [hcnt, ih]
          congr 1
          have hi := hx.inv
          rw [owing_some run] at hi
          rw [hi.count_act (r := { r with todo := r.todo ++ rel0.map Act.release }) (a := a) (rest := rest ++ rel0.map Act.release) rfl (by rw [todo]; rfl) hplain]
          exact hx.counted run rest
        | release r i rest run phase todo =>
          have hi := hx.inv
          rw [owing_some run] at hi
          have hres : ∀ d, r.res ≠ .ok d := fun d hd => hi.ok_no_release (r := { r with todo := r.todo ++ rel0.map Act.release }) rfl hd i (by rw [todo]; simp)
          refine plain (e := .act (.release i)) rfl rfl rfl ?_
          rw [run]
          exact (hasCounted_fail hres).trans (hasCounted_fail hres).symm
        | runSkip r i run phase once => rw [run] at ih; exact ih
        | runBegin r i run phase once => exact plain (e := .freeBegin i) rfl rfl rfl (by rw [run]; rfl)
        | runEnd r i run phase => exact plain (e := .freeEnd i) rfl rfl rfl (by rw [run]; rfl)
        | ret r run todo phase => exact absurd rfl nr
        | freeDec t x y frees phase i rest todo due => exact ih
        | freeSkip t x y frees i phase once => exact ih
        | freeBegin t x y frees i phase once => exact plain (e := .freeBegin i) rfl rfl rfl rfl
        | freeEnd t x y frees i phase => exact plain (e := .freeEnd i) rfl rfl rfl rfl
        | tick d => exact ih
        | read => exact plain (e := .observed _) rfl rfl rfl rfl
        | readCounter => exact plain (e := .counted _) rfl rfl rfl rfl
    | hook r a rest run phase todo may =>
      refine plain (e := .act a) rfl rfl rfl ?_
      rw [run]
      exact (hasCounted_cons (by rw [todo]; simp)).symm
    | cleanup r i run phase =>
      refine plain (e := .freeEnd i) rfl rfl rfl ?_
      rw [run]
      refine (hasCounted_fail ?_).symm
      have hi := hx.inv
      rw [owing_some run] at hi
      intro d hd
      cases hi.run _ rfl with
      | fail pre rel todo held idle res pending stage incs order => exact res d hd
      | ok pre new todo held idle d res pending stage incs good built => change r.phase = .idle at idle; rw [phase] at idle; cases idle
      | spawned new dyn todo held idle d res pending good built => change r.phase = .idle at idle; rw [phase] at idle; cases idle
      | last todo held idle d res pending => change r.phase = .idle at idle; rw [phase] at idle; cases idle
    | free t x y frees i phase => exact plain (e := .freeEnd i) rfl rfl rfl rfl

/-! ### How long a manager can be used -/

/-- The reference of the manager that was current at time `T` to `i` is not given back before the delay is over. -/
def Guarded (cfg : Config) (T i : Nat) (m : Machine) : Prop :=
  i ∈ m.curHeld ∨ (∃ t ∈ m.frees, i ∈ t.todo ∧ T + cfg.delay ≤ t.due) ∨ i ∈ m.abandoned

theorem Guarded.same {cfg : Config} {T i : Nat} {m m' : Machine} (h : Guarded cfg T i m) (hc : m'.current = m.current) (hp : m'.pending = m.pending)
    (hf : ∀ t ∈ m.frees, i ∈ t.todo → T + cfg.delay ≤ t.due → (∃ t' ∈ m'.frees, i ∈ t'.todo ∧ T + cfg.delay ≤ t'.due) ∨ i ∈ m'.abandoned) (ha : ∀ j ∈ m.abandoned, j ∈ m'.abandoned) : Guarded cfg T i m' := by
  rcases h with h | ⟨t, h1, h2, h3⟩ | h
  · left
    unfold Machine.curHeld Machine.currentInsts at h ⊢
    rw [hp, hc]; exact h
  · rcases hf t h1 h2 h3 with h | h
    · exact .inr (.inl h)
    · exact .inr (.inr h)
  · exact .inr (.inr (ha i h))

theorem WStep.guarded {cfg : Config} {m m' : Machine} {l : WLabel} {rel : List Nat} (hx : WInv cfg m L rel) {T i : Nat} (h : Guarded cfg T i m) (hT : T ≤ m.now) (hnow : m.now < T + cfg.delay)
    (hs : WStep cfg m l m') : Guarded cfg T i m' := by
  have keep : ∀ {fs : List FreeTask} {ab : List Nat}, fs = m.frees → ∀ t ∈ m.frees, i ∈ t.todo → T + cfg.delay ≤ t.due → (∃ t' ∈ fs, i ∈ t'.todo ∧ T + cfg.delay ≤ t'.due) ∨ i ∈ ab :=
    fun e t h1 h2 h3 => .inl ⟨t, by rw [e]; exact h1, h2, h3⟩
  have repl : ∀ {x y : List FreeTask} {t t' : FreeTask} {ab : List Nat}, m.frees = x ++ t :: y → (i ∈ t.todo → T + cfg.delay ≤ t.due → (i ∈ t'.todo ∧ T + cfg.delay ≤ t'.due) ∨ i ∈ ab) →
      ∀ u ∈ m.frees, i ∈ u.todo → T + cfg.delay ≤ u.due → (∃ v ∈ x ++ t' :: y, i ∈ v.todo ∧ T + cfg.delay ≤ v.due) ∨ i ∈ ab := by
    intro x y t t' ab he ht u hu h2 h3
    rw [he] at hu
    rcases List.mem_append.mp hu with hu | hu
    · exact .inl ⟨u, List.mem_append_left _ hu, h2, h3⟩
    · rcases List.mem_cons.mp hu with rfl | hu
      · rcases ht h2 h3 with ⟨g1, g2⟩ | g
        · exact .inl ⟨t', by simp, g1, g2⟩
        · exact .inr g
      · exact .inl ⟨u, by simp [hu], h2, h3⟩
  cases hs with
  | go l m' hn =>
    cases hn with
    | refused k env hk => exact h.same rfl rfl (keep rfl) (fun _ h => h)
    | call k env hk run => exact h.same rfl rfl (keep rfl) (fun _ h => h)
    | ret r run todo phase => exact h.same rfl rfl (keep rfl) (fun _ h => List.mem_append_right _ h)
    | go l m' st nr =>
      cases st with
      | refused k env hk => exact h.same rfl rfl (keep rfl) (fun _ h => h)
      | call k env hk run => exact h.same rfl rfl (keep rfl) (fun _ h => h)
      | act r a rest run phase todo hplain =>
        cases a with
        | spawnFree om =>
          have hi := hx.inv
          rw [owing_some run] at hi
          obtain ⟨new, d, hcur, _, _, hpn, _⟩ := hi.after_spawn (r := { r with todo := r.todo ++ rel.map Act.release }) (om := om) (rest := rest ++ rel.map Act.release) rfl (by rw [todo]; rfl)
          change m.current = some om at hcur
          rcases h with h | ⟨t, h1, h2, h3⟩ | h
          · refine .inr (.inl ⟨_, List.mem_append_right _ (List.mem_singleton.mpr rfl), ?_, ?_⟩)
            · unfold Machine.curHeld at h
              split at h
              · cases h
              · have := (Machine.mem_currentInsts hcur).mp h
                change i ∈ om.releaseList
                have hg := (hx.inv.cur om hcur).1
                exact hg.release_perm.mem_iff.mpr this
            · exact Nat.add_le_add_right hT _
          · exact .inr (.inl ⟨t, List.mem_append_left _ h1, h2, h3⟩)
          · exact .inr (.inr h)
        | publish pm =>
          rcases h with h | h | h
          · refine .inr (.inr ?_)
            change i ∈ (if m.pending.isSome then m.abandoned else m.currentInsts ++ m.abandoned)
            unfold Machine.curHeld at h
            split at h
            · cases h
            · rename_i hp
              rw [if_neg hp]
              exact List.mem_append_left _ h
          · exact .inr (.inl h)
          · refine .inr (.inr ?_)
            change i ∈ (if m.pending.isSome then m.abandoned else m.currentInsts ++ m.abandoned)
            split
            · exact h
            · exact List.mem_append_right _ h
        | _ => exact h.same rfl rfl (keep rfl) (fun _ h => h)
      | release r j rest run phase todo => exact h.same rfl rfl (keep rfl) (fun _ h => h)
      | runSkip r j run phase once => exact h.same rfl rfl (keep rfl) (fun _ h => h)
      | runBegin r j run phase once => exact h.same rfl rfl (keep rfl) (fun _ h => h)
      | runEnd r j run phase => exact h.same rfl rfl (keep rfl) (fun _ h => h)
      | ret r run todo phase => exact absurd rfl nr
      | freeDec t x y frees phase j rest todo due => exact h.same rfl rfl (repl frees (fun _ hd => by omega)) (fun _ h => h)
      | freeSkip t x y frees j phase once => exact h.same rfl rfl (repl frees (fun g1 g2 => .inl ⟨g1, g2⟩)) (fun _ h => h)
      | freeBegin t x y frees j phase once => exact h.same rfl rfl (repl frees (fun g1 g2 => .inl ⟨g1, g2⟩)) (fun _ h => h)
      | freeEnd t x y frees j phase => exact h.same rfl rfl (repl frees (fun g1 g2 => .inl ⟨g1, g2⟩)) (fun _ h => h)
      | tick d => exact h.same rfl rfl (keep rfl) (fun _ h => h)
      | read => exact h.same rfl rfl (keep rfl) (fun _ h => h)
      | readCounter => exact h.same rfl rfl (keep rfl) (fun _ h => h)
  | hook r a rest run phase todo may => exact h.same rfl rfl (keep rfl) (fun _ h => List.mem_append_right _ h)
  | cleanup r j run phase => exact h.same rfl rfl (keep rfl) (fun _ h => List.mem_append_right _ h)
  | free t x y frees j phase => exact h.same rfl rfl (repl frees (fun g _ => .inr (List.mem_append_left _ g))) (fun _ h => List.mem_append_right _ h)

/-- A guarded instance has not been freed. -/
theorem Guarded.not_freed {cfg : Config} {m : Machine} {rel : List Nat} (hx : NInv cfg m L rel) {T i : Nat} (h : Guarded cfg T i m) : i ∉ m.begins := by
  intro hm
  have hc := hx.inv.core
  have hbe : m.begins.count i = if m.once i then 1 else 0 := hc.begins_eq i
  have ho : m.once i = true := by
    cases ho : m.once i with
    | true => rfl
    | false =>
      rw [ho] at hbe
      exact absurd (List.count_pos_iff.mpr hm) (by simp [hbe])
  obtain ⟨_, h2⟩ := hc.once_ok i ho
  apply h2
  unfold Machine.holds
  simp only [List.mem_append]
  rcases h with h | ⟨t, h1, h3, _⟩ | h
  · exact .inr (.inl h)
  · exact .inl (List.mem_flatMap.mpr ⟨t, h1, h3⟩)
  · exact .inr (.inr (.inr h))

theorem WStep.now_le {cfg : Config} {m m' : Machine} {l : WLabel} (hs : WStep cfg m l m') : m.now ≤ m'.now := by
  cases hs with
  | go l m' hn =>
    cases hn with
    | go l m' st nr => exact st.now_le
    | _ => exact Nat.le_refl _
  | _ => exact Nat.le_refl _

end Hotswap
