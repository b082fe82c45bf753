import Verif.Proofs.HookInv

/-! Histories: what precedes each event. -/

namespace Hotswap

variable [GoRuntime]

/-- What makes an event happen in state `m`. -/
inductive Cause (cfg : Config) (m : Machine) : Ev → Prop
  | refused (k : Kind) (h : Hotswap.refused cfg k = true) : Cause cfg m .refused
  | called (k : Kind) (h : Hotswap.refused cfg k = false) (run : m.running = none) : Cause cfg m (.called k)
  | act (r : Running) (a : Act) (rest : List Act) (run : m.running = some r) (phase : r.phase = .idle) (todo : r.todo = a :: rest) : Cause cfg m (.act a)
  | returned (r : Running) (run : m.running = some r) (phase : r.phase = .idle) (todo : r.todo = []) : Cause cfg m (.returned r.kind r.res)
  | begin (i : Nat) (zero : i ∈ m.zs) : Cause cfg m (.freeBegin i)
  | done (i : Nat) (inside : i ∈ m.ins) : Cause cfg m (.freeEnd i)
  | observed : Cause cfg m (.observed (m.current.map (·.mid)))
  | counted : Cause cfg m (.counted m.counter)

theorem mem_ins_run {m : Machine} {r : Running} {i : Nat} (hrun : m.running = some r) (hp : r.phase = .inside i) : i ∈ m.ins := by
  simp [Machine.ins, hrun, runIns, hp, Phase.ins]

theorem mem_ins_free {m : Machine} {t : FreeTask} {i : Nat} (ht : t ∈ m.frees) (hp : t.phase = .inside i) : i ∈ m.ins := by
  unfold Machine.ins
  refine List.mem_append_right _ (List.mem_flatMap.mpr ⟨t, ht, ?_⟩)
  simp [hp, Phase.ins]

/-- A step adds at most one event, stamped with the current time. -/
theorem Step.emits {cfg : Config} {m m' : Machine} {l : Label} (h : Step cfg m l m') :
    m'.trace = m.trace ∨ ∃ e, m'.trace = m.trace ++ [(m.now, e)] ∧ Cause cfg m e := by
  cases h with
  | refused k env hr => exact .inr ⟨_, rfl, .refused k hr⟩
  | call k env hr run => exact .inr ⟨_, rfl, .called k hr run⟩
  | act r a rest run phase todo plain => exact .inr ⟨.act a, perform_trace, .act r a rest run phase todo⟩
  | release r i rest run phase todo => exact .inr ⟨_, rfl, .act r _ rest run phase todo⟩
  | runSkip r i run phase once => exact .inl rfl
  | runBegin r i run phase once => exact .inr ⟨_, rfl, .begin i (mem_zs_run run phase)⟩
  | runEnd r i run phase => exact .inr ⟨_, rfl, .done i (mem_ins_run run phase)⟩
  | ret r run todo phase => exact .inr ⟨_, rfl, .returned r run phase todo⟩
  | freeDec t x y frees phase i rest todo due => exact .inl rfl
  | freeSkip t x y frees i phase once => exact .inl rfl
  | freeBegin t x y frees i phase once => exact .inr ⟨_, rfl, .begin i (mem_zs_free (t := t) (by rw [frees]; simp) phase)⟩
  | freeEnd t x y frees i phase => exact .inr ⟨_, rfl, .done i (mem_ins_free (t := t) (by rw [frees]; simp) phase)⟩
  | tick d => exact .inl rfl
  | read => exact .inr ⟨_, rfl, .observed⟩
  | readCounter => exact .inr ⟨_, rfl, .counted⟩

theorem snoc_split {α : Type} {l a b : List α} {x e : α} (h : l ++ [x] = a ++ e :: b) :
    (∃ b', b = b' ++ [x] ∧ l = a ++ e :: b') ∨ (b = [] ∧ a = l ∧ e = x) := by
  rcases List.eq_nil_or_concat b with rfl | ⟨b', y, rfl⟩
  · right
    have := List.append_inj' h rfl
    exact ⟨rfl, this.1.symm, by simpa using this.2.symm⟩
  · left
    rw [List.concat_eq_append] at h ⊢
    have h' : l ++ [x] = (a ++ e :: b') ++ [y] := by simpa using h
    have := List.append_inj' h' rfl
    exact ⟨b', by simpa using this.2.symm, this.1⟩

/-- A property of events given their past holds of all histories if it holds whenever an event happens. -/
theorem hist {cfg : Config} {Q : History → Nat × Ev → Prop}
    (hQ : ∀ m e, Reachable cfg m → Cause cfg m e → Q m.trace (m.now, e)) {m : Machine} (h : Reachable cfg m) :
    ∀ a e b, m.trace = a ++ e :: b → Q a e := by
  refine Reachable.ind (P := fun m => ∀ a e b, m.trace = a ++ e :: b → Q a e) ?_ ?_ h
  · intro a e b h; simp [Machine.init] at h
  · intro m m' l hr ih hs a e b he
    rcases hs.emits with h | ⟨ev, h, hc⟩
    · exact ih a e b (h ▸ he)
    · rw [h] at he
      rcases snoc_split he with ⟨b', _, hl⟩ | ⟨_, rfl, rfl⟩
      · exact ih a e b' hl
      · exact hQ m ev hr hc

/-! ### The current manager -/

omit [GoRuntime] in
theorem lastPublished_snoc (tr : History) (t : Nat) (e : Ev) :
    lastPublished (tr ++ [(t, e)]) = match e with | .act (.publish pm) => some pm | _ => lastPublished tr := by
  unfold lastPublished published
  rw [List.filterMap_append]
  cases e with
  | act a => cases a <;> simp
  | _ => simp

theorem perform_current {cfg : Config} {m : Machine} {a : Act} :
    (m.perform cfg a).current = match a with | .publish pm => some pm | _ => m.current := by
  cases a <;> rfl

/-- Steps keep `Current()` the manager published last. -/
theorem Step.current_eq {cfg : Config} {m m' : Machine} {l : Label} (ih : m.current = lastPublished m.trace) (hs : Step cfg m l m') : m'.current = lastPublished m'.trace := by
  have lp : ∀ {e : Ev}, (∀ pm, e ≠ .act (.publish pm)) → lastPublished m.trace = lastPublished (m.trace ++ [(m.now, e)]) := by
    intro e he
    rw [lastPublished_snoc]
    cases e with
    | act a => cases a <;> first | rfl | exact absurd rfl (he _)
    | _ => rfl
  cases hs with
  | refused k env hr => exact ih.trans (lp (by simp))
  | call k env hr run => exact ih.trans (lp (by simp))
  | act r a rest run phase todo plain =>
    change (Machine.perform cfg (m.log (.act a)) a).current = lastPublished (Machine.perform cfg (m.log (.act a)) a).trace
    rw [perform_trace, perform_current]
    refine Eq.trans ?_ (lastPublished_snoc m.trace m.now (.act a)).symm
    cases a <;> first | exact ih | rfl
  | release r i rest run phase todo => exact ih.trans (lp (by simp))
  | runSkip r i run phase once => exact ih
  | runBegin r i run phase once => exact ih.trans (lp (by simp))
  | runEnd r i run phase => exact ih.trans (lp (by simp))
  | ret r run todo phase => exact ih.trans (lp (by simp))
  | freeDec t x y frees phase i rest todo due => exact ih
  | freeSkip t x y frees i phase once => exact ih
  | freeBegin t x y frees i phase once => exact ih.trans (lp (by simp))
  | freeEnd t x y frees i phase => exact ih.trans (lp (by simp))
  | tick d => exact ih
  | read => exact ih.trans (lp (by simp))
  | readCounter => exact ih.trans (lp (by simp))

/-- `Current()` is the manager published last. -/
theorem current_eq {cfg : Config} {m : Machine} (h : Reachable cfg m) : m.current = lastPublished m.trace :=
  Reachable.ind (P := fun m => m.current = lastPublished m.trace) rfl (fun _ _ _ _ ih hs => hs.current_eq ih) h

/-! ### Calls do not overlap -/

omit [GoRuntime] in
theorem openCall_snoc (tr : History) (t : Nat) (e : Ev) :
    openCall (tr ++ [(t, e)]) = match e with | .called k => some k | .returned _ _ => none | _ => openCall tr := by
  unfold openCall
  rw [List.foldl_append]
  rfl

theorem perform_running {cfg : Config} {m : Machine} {a : Act} : (m.perform cfg a).running = m.running := by
  cases a <;> rfl

theorem openCall_eq {cfg : Config} {m : Machine} (h : Reachable cfg m) : openCall m.trace = m.running.map (·.kind) := by
  refine Reachable.ind (P := fun m => openCall m.trace = m.running.map (·.kind)) rfl ?_ h
  intro m m' l _ ih hs
  have lp : ∀ {e : Ev}, (∀ k, e ≠ .called k) → (∀ k r, e ≠ .returned k r) → openCall (m.trace ++ [(m.now, e)]) = openCall m.trace := by
    intro e he he'
    rw [openCall_snoc]
    cases e <;> first | rfl | exact absurd rfl (he _) | exact absurd rfl (he' _ _)
  cases hs with
  | refused k env hr => exact (lp (by simp) (by simp)).trans ih
  | call k env hr run => exact openCall_snoc m.trace m.now (.called k)
  | act r a rest run phase todo plain =>
    change openCall (Machine.perform cfg (m.log (.act a)) a).trace = _
    rw [perform_trace]
    refine (openCall_snoc m.trace m.now (.act a)).trans ?_
    rw [run] at ih
    exact ih
  | release r i rest run phase todo => rw [run] at ih; exact (lp (by simp) (by simp)).trans ih
  | runSkip r i run phase once => rw [run] at ih; exact ih
  | runBegin r i run phase once => rw [run] at ih; exact (lp (by simp) (by simp)).trans ih
  | runEnd r i run phase => rw [run] at ih; exact (lp (by simp) (by simp)).trans ih
  | ret r run todo phase => exact openCall_snoc m.trace m.now (.returned r.kind r.res)
  | freeDec t x y frees phase i rest todo due => exact ih
  | freeSkip t x y frees i phase once => exact ih
  | freeBegin t x y frees i phase once => exact (lp (by simp) (by simp)).trans ih
  | freeEnd t x y frees i phase => exact (lp (by simp) (by simp)).trans ih
  | tick d => exact ih
  | read => exact (lp (by simp) (by simp)).trans ih
  | readCounter => exact (lp (by simp) (by simp)).trans ih

/-! ### The counter -/

/-- Has a call with this kind and result and these remaining actions counted itself? -/
def hasCounted : Kind → Result → List Act → Nat
  | .reload _, .ok _, [] => 1
  | _, _, _ => 0

/-- What an action adds to the counter. -/
def Act.counts : Act → Nat
  | .count => 1
  | _ => 0

/-- The running call has counted itself. -/
def inflight : Option Running → Nat
  | none => 0
  | some r => hasCounted r.kind r.res r.todo

omit [GoRuntime] in
theorem hasCounted_fail {k : Kind} {r : Result} {l : List Act} (h : ∀ d, r ≠ .ok d) : hasCounted k r l = 0 := by
  cases k <;> cases r <;> first | rfl | exact absurd rfl (h _)

omit [GoRuntime] in
theorem hasCounted_cons {k : Kind} {r : Result} {l : List Act} (h : l ≠ []) : hasCounted k r l = 0 := by
  cases k <;> cases r <;> cases l <;> first | rfl | exact absurd rfl h

omit [GoRuntime] in
theorem hasCounted_load {r : Result} {l : List Act} : hasCounted .load r l = 0 := rfl

omit [GoRuntime] in
theorem reloadsOk_snoc (tr : History) (t : Nat) (e : Ev) : reloadsOk (tr ++ [(t, e)]) = reloadsOk tr + if e.isReloadOk then 1 else 0 := by
  unfold reloadsOk
  rw [List.countP_append, List.countP_singleton]

/-- A call counts itself with its last action. -/
theorem InvL.count_act {L : List Nat} {cfg : Config} {m : Machine} (hinv : InvL L cfg m) {r : Running} {a : Act} {rest : List Act} (run : m.running = some r) (todo : r.todo = a :: rest)
    (plain : ∀ i, a ≠ .release i) : a.counts = hasCounted r.kind r.res rest := by
  cases hinv.run r run with
  | fail pre rel todo' held idle res pending stage incs order =>
    rw [hasCounted_fail res]
    rw [todo] at todo'
    rcases cons_of_append todo'.symm with ⟨pre', rfl, hr⟩ | ⟨_, hr⟩
    · have := stage a (List.mem_cons_self ..)
      cases a <;> simp [Act.stage] at this <;> rfl
    · cases rel with
      | nil => cases hr
      | cons i rel' => simp at hr; exact absurd hr.1.symm (plain i)
  | ok pre new todo' held idle d res pending stage incs good built =>
    rw [todo] at todo'
    have hac : a ≠ .count ∧ (rest = [] → r.kind = .load) := by
      rcases cons_of_append todo'.symm with ⟨pre', rfl, hr⟩ | ⟨_, hr⟩
      · have := stage a (List.mem_cons_self ..)
        refine ⟨by rintro rfl; simp [Act.stage] at this, ?_⟩
        intro he; rw [he] at hr; have := hr.symm; simp at this
      · cases hst : cfg.static.isSome with
        | true =>
          rw [hst] at hr; simp at hr
          refine ⟨by rw [← hr.1]; simp, ?_⟩
          intro he
          cases hk : r.kind with
          | load => rfl
          | reload e => rw [hk] at hr; simp [countActs] at hr; rw [he] at hr; simp at hr
        | false =>
          rw [hst] at hr
          cases hc : m.current with
          | none =>
            simp [hc, spawnActs] at hr
            refine ⟨by rw [← hr.1]; simp, ?_⟩
            intro he
            cases hk : r.kind with
            | load => rfl
            | reload e => rw [hk] at hr; simp [countActs] at hr; rw [he] at hr; simp at hr
          | some om =>
            simp [hc, spawnActs] at hr
            refine ⟨by rw [← hr.1]; simp, ?_⟩
            intro he; rw [he] at hr; simp at hr
    have e1 : a.counts = 0 := by
      cases a <;> first | rfl | exact absurd rfl hac.1
    rw [e1]
    cases hk : r.kind with
    | load => rfl
    | reload e =>
      refine (hasCounted_cons ?_).symm
      intro he; have := hac.2 he; rw [hk] at this; cases this
  | spawned new dyn todo' held idle d res pending good built =>
    rw [todo] at todo'
    simp at todo'
    obtain ⟨rfl, hr⟩ := todo'
    cases hk : r.kind with
    | load => rfl
    | reload e => exact (hasCounted_cons (by rw [hr, hk]; simp [countActs])).symm
  | last todo' held idle d res pending =>
    rw [todo] at todo'
    rcases todo' with todo' | todo'
    · cases hk : r.kind with
      | load => rw [hk] at todo'; simp [countActs] at todo'
      | reload e =>
        rw [hk] at todo'
        simp [countActs] at todo'
        obtain ⟨rfl, hr⟩ := todo'
        rw [res, hr]; rfl
    · cases todo'

theorem counter_eq {cfg : Config} (hcfg : cfg.OK) {m : Machine} (h : Reachable cfg m) :
    m.counter = reloadsOk m.trace + inflight m.running := by
  refine Reachable.ind (P := fun m => m.counter = reloadsOk m.trace + inflight m.running) rfl ?_ h
  intro m m' l hr ih hs
  have hinv := inv hcfg hr
  have plainEv : ∀ {e : Ev}, e.isReloadOk = false → reloadsOk (m.trace ++ [(m.now, e)]) = reloadsOk m.trace := by
    intro e he; rw [reloadsOk_snoc, he]; simp
  cases hs with
  | refused k env hr => exact ih.trans (congrArg (· + _) (plainEv rfl).symm)
  | call k env hr run =>
    change m.counter = reloadsOk (m.trace ++ [(m.now, .called k)]) + _
    rw [plainEv rfl, ih, run]
    have hv := plan_view (env := env) (k := k) (old := m.current) (n0 := m.next) hcfg (fun om ho => (hinv.cur om ho).1)
    change reloadsOk m.trace + 0 = reloadsOk m.trace + hasCounted k _ _
    congr 1
    cases hv.shape hr with
    | failed pre rel acts res log stage acq nodup built origin => exact (hasCounted_fail res).symm
    | ok pre acts d res log stage acq good origin => exact (hasCounted_cons (by rw [acts]; simp)).symm
    | noop acts d res built =>
      cases k with
      | load => rfl
      | reload e => exact (hasCounted_cons (by rw [acts]; simp [countActs])).symm
  | act r a rest run phase todo plain =>
    change (Machine.perform cfg (m.log (.act a)) a).counter = reloadsOk (Machine.perform cfg (m.log (.act a)) a).trace + inflight (some { r with todo := rest, held := heldAfter r.held a })
    rw [perform_trace]
    change _ = reloadsOk (m.trace ++ [(m.now, .act a)]) + _
    rw [plainEv rfl]
    rw [run] at ih
    have h0 : inflight (some r) = 0 := hasCounted_cons (by rw [todo]; simp)
    rw [h0, Nat.add_zero] at ih
    rw [← ih]
    have hcnt : (Machine.perform cfg (m.log (.act a)) a).counter = m.counter + a.counts := by cases a <;> rfl
    rw [hcnt]
    congr 1
    change _ = hasCounted r.kind r.res rest
    exact hinv.count_act run todo plain
  | release r i rest run phase todo =>
    obtain ⟨rel, _, _, hres, _⟩ := hinv.releasing run (.inl ⟨i, rest, todo⟩)
    rw [run] at ih
    change m.counter = reloadsOk m.trace + hasCounted r.kind r.res r.todo at ih
    change m.counter = reloadsOk (m.trace ++ [(m.now, .act (.release i))]) + hasCounted r.kind r.res rest
    rw [plainEv rfl, hasCounted_fail hres]
    rw [hasCounted_fail hres] at ih
    exact ih
  | runSkip r i run phase once => rw [run] at ih; exact ih
  | runBegin r i run phase once =>
    rw [run] at ih
    exact ih.trans (congrArg (· + _) (plainEv rfl).symm)
  | runEnd r i run phase =>
    rw [run] at ih
    exact ih.trans (congrArg (· + _) (plainEv rfl).symm)
  | ret r run todo phase =>
    change m.counter = reloadsOk (m.trace ++ [(m.now, .returned r.kind r.res)]) + 0
    rw [reloadsOk_snoc, ih, run, Nat.add_zero]
    congr 1
    change hasCounted r.kind r.res r.todo = _
    rw [todo]
    cases r.kind <;> cases r.res <;> rfl
  | freeDec t x y frees phase i rest todo due => exact ih
  | freeSkip t x y frees i phase once => exact ih
  | freeBegin t x y frees i phase once => exact ih.trans (congrArg (· + _) (plainEv rfl).symm)
  | freeEnd t x y frees i phase => exact ih.trans (congrArg (· + _) (plainEv rfl).symm)
  | tick d => exact ih
  | read => exact ih.trans (congrArg (· + _) (plainEv rfl).symm)
  | readCounter => exact ih.trans (congrArg (· + _) (plainEv rfl).symm)

/-- Nothing but the counter action changes the counter. -/
theorem Step.counter {cfg : Config} {m m' : Machine} {l : Label} (h : Step cfg m l m') :
    m'.counter = m.counter ∨ (m'.counter = m.counter + 1 ∧ ∃ r rest, m.running = some r ∧ r.todo = .count :: rest) := by
  cases h with
  | act r a rest run phase todo plain =>
    cases a <;> first | exact .inl rfl | exact .inr ⟨rfl, r, rest, run, todo⟩
  | _ => exact .inl rfl

end Hotswap
