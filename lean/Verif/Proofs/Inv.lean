import Verif.Proofs.Core
import Verif.Proofs.Steps

/-! The main invariant of the machine: reference counts and the shape of the running call. -/

namespace Hotswap

variable [GoRuntime] {L : List Nat}

def Phase.zs : Phase → List Nat
  | .zero i => [i]
  | _ => []

def Phase.ins : Phase → List Nat
  | .inside i => [i]
  | _ => []

def Phase.insts : Phase → List Nat
  | .idle => []
  | .zero i => [i]
  | .inside i => [i]

/-- What the running call contributes. -/
def runZs : Option Running → List Nat
  | none => []
  | some r => r.phase.zs

def runIns : Option Running → List Nat
  | none => []
  | some r => r.phase.ins

def runHeld : Option Running → List Nat
  | none => []
  | some r => r.held

def runTodo : Option Running → List Act
  | none => []
  | some r => r.todo

/-- The references held on behalf of the current manager (until the free goroutine takes them over). -/
def Machine.curHeld (m : Machine) : List Nat := if m.pending.isSome then [] else m.currentInsts

/-- All references. -/
def Machine.holds (m : Machine) : List Nat :=
  m.frees.flatMap (·.todo) ++ (m.curHeld ++ (runHeld m.running ++ m.abandoned))

def Machine.zs (m : Machine) : List Nat := runZs m.running ++ m.frees.flatMap (·.phase.zs)
def Machine.ins (m : Machine) : List Nat := runIns m.running ++ m.frees.flatMap (·.phase.ins)

def Machine.CoreOK (m : Machine) : Prop := Core m.refs m.once m.holds m.zs m.ins m.regs m.begins m.ends

def registers (l : List Act) : List Nat := l.filterMap (fun a => match a with | .register i => some i | _ => none)

/-- The instances in `l`, waiting to be released by a failed load, are in a safe order: either the load had ordered its
plugins and `l` is what remains of the reverse order, or none of them was bound to a dependency by the load. -/
def OrderOK (m : Machine) (l : List Nat) : Prop :=
  (∃ built ∈ m.builts, SoundManager m.next built ∧ l <:+ built.releaseList) ∨
  ∀ i ∈ l, i ∈ m.currentInsts ∨ ∀ pm ∈ m.builts, pm.ordered ≠ [] → i ∉ pm.insts

/-- The state of the running call. -/
inductive RunOK (cfg : Config) (m : Machine) (r : Running) : Prop
  | fail (pre : List Act) (rel : List Nat) (todo : r.todo = pre ++ rel.map Act.release) (held : (r.held ++ acquired pre).Perm rel)
      (idle : pre ≠ [] → r.phase = .idle) (res : ∀ d, r.res ≠ .ok d) (pending : m.pending = none)
      (stage : ∀ a ∈ pre, a.stage ≤ 6) (incs : ∀ i, Act.inc i ∈ pre → i ∈ m.currentInsts)
      (order : OrderOK m (r.phase.insts ++ rel))
  | ok (pre : List Act) (new : Manager)
      (todo : r.todo = pre ++ ((if cfg.static.isSome then [] else spawnActs m.current) ++ (.publish new :: countActs r.kind)))
      (held : (r.held ++ acquired pre).Perm new.insts) (idle : r.phase = .idle) (d : Details) (res : r.res = .ok d) (pending : m.pending = none)
      (stage : ∀ a ∈ pre, a.stage ≤ 6) (incs : ∀ i, Act.inc i ∈ pre → i ∈ m.currentInsts)
      (good : SoundManager m.next new) (built : new ∈ m.builts)
  | spawned (new : Manager) (dyn : cfg.static.isSome = false) (todo : r.todo = .publish new :: countActs r.kind)
      (held : r.held.Perm new.insts) (idle : r.phase = .idle) (d : Details) (res : r.res = .ok d) (pending : m.pending.isSome = true)
      (good : SoundManager m.next new) (built : new ∈ m.builts)
  | last (todo : r.todo = countActs r.kind ∨ r.todo = []) (held : r.held = []) (idle : r.phase = .idle) (d : Details) (res : r.res = .ok d)
      (pending : m.pending = none)

/-- The invariant. `L` are references that nobody will ever give back: none in the program as it is, see Proofs/Goexit. -/
structure InvL (L : List Nat) (cfg : Config) (m : Machine) : Prop where
  core : m.CoreOK
  cur : ∀ pm, m.current = some pm → SoundManager m.next pm ∧ pm ∈ m.builts
  idle : m.running = none → m.pending = none
  frees : ∀ t ∈ m.frees, ∃ pm ∈ m.builts, SoundManager m.next pm ∧ (t.phase.insts ++ t.todo) <:+ pm.releaseList
  run : ∀ r, m.running = some r → RunOK cfg m r
  regsNodup : (m.regs ++ registers (runTodo m.running)).Nodup
  regsLt : ∀ i ∈ m.regs ++ registers (runTodo m.running), i < m.next
  dyn : cfg.static.isSome = false → m.abandoned = L
  sound : ∀ pm ∈ m.builts, pm.ordered ≠ [] → SoundManager m.next pm

/-- The invariant of the program. -/
abbrev Inv (cfg : Config) (m : Machine) : Prop := InvL [] cfg m

/-! ### Trace projections -/

theorem regs_log (m : Machine) (e : Ev) : (m.log e).regs = m.regs ++ (match e with | .act (.register i) => [i] | _ => []) := by
  simp only [Machine.regs, Machine.log, Machine.events, List.map_append, List.filterMap_append]
  congr 1
  cases e with
  | act a => cases a <;> rfl
  | _ => rfl

theorem begins_log (m : Machine) (e : Ev) : (m.log e).begins = m.begins ++ (match e with | .freeBegin i => [i] | _ => []) := by
  simp only [Machine.begins, Machine.log, Machine.events, List.map_append, List.filterMap_append]
  congr 1
  cases e <;> rfl

theorem ends_log (m : Machine) (e : Ev) : (m.log e).ends = m.ends ++ (match e with | .freeEnd i => [i] | _ => []) := by
  simp only [Machine.ends, Machine.log, Machine.events, List.map_append, List.filterMap_append]
  congr 1
  cases e <;> rfl

/-- Whatever is updated besides the trace. -/
theorem regs_congr {m m' : Machine} (h : m'.trace = m.trace) : m'.regs = m.regs := by simp [Machine.regs, Machine.events, h]
theorem begins_congr {m m' : Machine} (h : m'.trace = m.trace) : m'.begins = m.begins := by simp [Machine.begins, Machine.events, h]
theorem ends_congr {m m' : Machine} (h : m'.trace = m.trace) : m'.ends = m.ends := by simp [Machine.ends, Machine.events, h]

theorem SoundManager.mono {n n' : Nat} {pm : Manager} (h : SoundManager n pm) (hn : n ≤ n') : SoundManager n' pm :=
  { h with fresh := fun i hi => Nat.lt_of_lt_of_le (h.fresh i hi) hn }

theorem GoodManager.mono {n n' : Nat} {pm : Manager} (h : GoodManager n pm) (hn : n ≤ n') : GoodManager n' pm :=
  { h with fresh := fun i hi => Nat.lt_of_lt_of_le (h.fresh i hi) hn }

theorem SoundManager.release_perm {n : Nat} {pm : Manager} (h : SoundManager n pm) : pm.releaseList.Perm pm.insts := by
  unfold Manager.releaseList Manager.insts
  exact (List.reverse_perm _).trans (h.ordered.map _)

omit [GoRuntime] in
theorem registers_sublist (l : List Act) : (registers l).Sublist (acquired l) := by
  induction l with
  | nil => simp [registers, acquired]
  | cons a r ih =>
    unfold registers acquired at *
    cases a <;> simp [List.filterMap_cons, acquires] <;> first | exact ih | exact ih.cons _

omit [GoRuntime] in
theorem registers_append (l r : List Act) : registers (l ++ r) = registers l ++ registers r := by
  simp [registers]

omit [GoRuntime] in
theorem registers_nil {l : List Act} (h : ∀ a ∈ l, a.stage ≠ 1) : registers l = [] := by
  have := registers_sublist l
  rw [acquired_eq_nil h] at this
  exact List.sublist_nil.mp this

omit [GoRuntime] in
theorem mem_registers {l : List Act} {i : Nat} : i ∈ registers l ↔ Act.register i ∈ l := by
  unfold registers
  rw [List.mem_filterMap]
  constructor
  · rintro ⟨a, ha, he⟩
    cases a <;> simp at he
    subst he; exact ha
  · intro h; exact ⟨_, h, rfl⟩

theorem stage_release (rel : List Nat) : ∀ a ∈ rel.map Act.release, a.stage = 7 := by
  intro a ha; obtain ⟨i, _, rfl⟩ := List.mem_map.mp ha; rfl

theorem stage_tail {cfg : Config} {old : Option Manager} {new : Manager} {k : Kind} :
    ∀ a ∈ (if cfg.static.isSome then [] else spawnActs old) ++ (Act.publish new :: countActs k), a.stage = 7 := by
  intro a ha
  simp only [List.mem_append, List.mem_cons] at ha
  rcases ha with ha | rfl | ha
  · split at ha
    · cases ha
    · cases old <;> simp [spawnActs] at ha
      subst ha; rfl
  · rfl
  · cases k <;> simp [countActs] at ha
    subst ha; rfl

theorem stage_count {k : Kind} : ∀ a ∈ countActs k, a.stage = 7 := by
  intro a ha
  cases k <;> simp [countActs] at ha
  subst ha; rfl

/-! ### The steps -/

theorem InvL.init (cfg : Config) : InvL [] cfg Machine.init := by
  refine ⟨Core.init, ?_, ?_, ?_, ?_, ?_, ?_, ?_, ?_⟩ <;> simp [Machine.init, Machine.regs, Machine.events, runTodo, registers]

theorem OrderOK.suffix {m : Machine} {l l' : List Nat} (h : OrderOK m l) (hs : l' <:+ l) : OrderOK m l' := by
  rcases h with ⟨b, h1, h2, h3⟩ | h
  · exact .inl ⟨b, h1, h2, hs.trans h3⟩
  · exact .inr (fun i hi => h i (hs.subset hi))

theorem OrderOK.congr {m m' : Machine} {l : List Nat} (h : OrderOK m l) (hc : m'.current = m.current)
    (hn : m'.next = m.next) (hb : m'.builts = m.builts) : OrderOK m' l := by
  have hi : m'.currentInsts = m.currentInsts := by simp [Machine.currentInsts, hc]
  unfold OrderOK at *
  rw [hi, hn, hb]; exact h

/-- Moving to a state that differs in what the invariant does not mention. -/
theorem RunOK.congr {cfg : Config} {m m' : Machine} {r : Running} (h : RunOK cfg m r) (hc : m'.current = m.current) (hp : m'.pending = m.pending)
    (hn : m'.next = m.next) (hb : m'.builts = m.builts) : RunOK cfg m' r := by
  have hi : m'.currentInsts = m.currentInsts := by simp [Machine.currentInsts, hc]
  cases h with
  | fail pre rel todo held idle res pending stage incs order => exact .fail pre rel todo held idle res (hp ▸ pending) stage (hi ▸ incs) (order.congr hc hn hb)
  | ok pre new todo held idle d res pending stage incs good built =>
    exact .ok pre new (hc ▸ todo) held idle d res (hp ▸ pending) stage (hi ▸ incs) (hn ▸ good) (hb ▸ built)
  | spawned new dyn todo held idle d res pending good built => exact .spawned new dyn todo held idle d res (hp ▸ pending) (hn ▸ good) (hb ▸ built)
  | last todo held idle d res pending => exact .last todo held idle d res (hp ▸ pending)

/-- Only the trace (by an event that no projection sees) and the clock change. -/
theorem InvL.silent {cfg : Config} {m m' : Machine} (h : InvL L cfg m) (hr : m'.regs = m.regs) (hb : m'.begins = m.begins) (he : m'.ends = m.ends)
    (hn : m'.next = m.next) (hc : m'.current = m.current) (hrefs : m'.refs = m.refs) (ho : m'.once = m.once) (hrun : m'.running = m.running)
    (hf : m'.frees = m.frees) (hp : m'.pending = m.pending) (ha : m'.abandoned = m.abandoned) (hbu : m'.builts = m.builts) : InvL L cfg m' := by
  have hi : m'.currentInsts = m.currentInsts := by simp [Machine.currentInsts, hc]
  have hh : m'.holds = m.holds := by simp only [Machine.holds, Machine.curHeld, hf, hp, hi, hrun, ha]
  have hz : m'.zs = m.zs := by simp only [Machine.zs, hf, hrun]
  have hin : m'.ins = m.ins := by simp only [Machine.ins, hf, hrun]
  refine ⟨?_, ?_, ?_, ?_, ?_, ?_, ?_, ?_, ?_⟩
  · unfold Machine.CoreOK; rw [hrefs, ho, hh, hz, hin, hr, hb, he]; exact h.core
  · rw [hc, hn, hbu]; exact h.cur
  · rw [hrun, hp]; exact h.idle
  · rw [hf, hn, hbu]; exact h.frees
  · intro r hr'
    rw [hrun] at hr'
    exact (h.run r hr').congr hc hp hn hbu
  · rw [hr, hrun]; exact h.regsNodup
  · rw [hr, hrun, hn]; exact h.regsLt
  · rw [ha]; exact h.dyn
  · rw [hbu, hn]; exact h.sound

/-- The invariant under the start of a call with the plan `p`. -/
theorem InvL.callPlan {cfg : Config} {m : Machine} (h : InvL L cfg m) {k : Kind} {p : Plan} (hs : Shape cfg k m.current m.next p)
    (hle : m.next ≤ p.next) (hrun : m.running = none) :
    InvL L cfg { m.log (.called k) with
          next := p.next
          builts := p.built :: m.builts
          running := some { kind := k, todo := p.acts, res := p.res, phase := .idle, held := [] } } := by
  have hpend := h.idle hrun
  have hregs : ({ m.log (.called k) with
          next := p.next
          builts := p.built :: m.builts
          running := some { kind := k, todo := p.acts, res := p.res, phase := .idle, held := [] } } : Machine).regs = m.regs := by
    have := regs_log m (.called k)
    simpa [Machine.regs, Machine.events] using this
  have hbegins : ({ m.log (.called k) with
          next := p.next
          builts := p.built :: m.builts
          running := some { kind := k, todo := p.acts, res := p.res, phase := .idle, held := [] } } : Machine).begins = m.begins := by
    have := begins_log m (.called k)
    simpa [Machine.begins, Machine.events] using this
  have hends : ({ m.log (.called k) with
          next := p.next
          builts := p.built :: m.builts
          running := some { kind := k, todo := p.acts, res := p.res, phase := .idle, held := [] } } : Machine).ends = m.ends := by
    have := ends_log m (.called k)
    simpa [Machine.ends, Machine.events] using this
  have hregsp : (registers p.acts).Nodup ∧ ∀ i ∈ registers p.acts, m.next ≤ i ∧ i < p.next := by
    have key : ∀ pre tail rel, p.acts = pre ++ tail → (∀ a ∈ tail, a.stage = 7) → (acquired pre).Perm rel → rel.Nodup →
        Log m.current m.next p.next pre → (registers p.acts).Nodup ∧ ∀ i ∈ registers p.acts, m.next ≤ i ∧ i < p.next := by
      intro pre tail rel ha ht hp hn hl
      rw [ha, registers_append, registers_nil (l := tail) (fun a ha => by rw [ht a ha]; decide), List.append_nil]
      exact ⟨(hp.symm.nodup hn).sublist (registers_sublist pre), fun i hi => hl.regs i (mem_registers.mp hi)⟩
    cases hs with
    | failed pre rel acts res log stage acq nodup built origin => exact key pre _ rel acts (stage_release rel) acq nodup log
    | ok pre acts d res log stage acq good origin => exact key pre _ _ acts stage_tail acq good.nodup log
    | noop acts d res built => rw [acts, registers_nil (fun a ha => by rw [stage_count a ha]; decide)]; simp
  have hold : ∀ i ∈ m.regs, i < m.next := fun i hi => h.regsLt i (List.mem_append_left _ hi)
  refine ⟨?_, ?_, ?_, ?_, ?_, ?_, ?_, ?_, ?_⟩
  · unfold Machine.CoreOK
    rw [hregs, hbegins, hends]
    have := h.core
    unfold Machine.CoreOK at this
    simpa [Machine.holds, Machine.curHeld, Machine.currentInsts, Machine.zs, Machine.ins, hrun, runHeld, runZs, runIns, Machine.log, Phase.zs, Phase.ins] using this
  · intro pm hpm
    obtain ⟨h1, h2⟩ := h.cur pm hpm
    exact ⟨h1.mono hle, List.mem_cons_of_mem _ h2⟩
  · intro h; cases h
  · intro t ht
    obtain ⟨pm, h1, h2, h3⟩ := h.frees t ht
    exact ⟨pm, List.mem_cons_of_mem _ h1, h2.mono hle, h3⟩
  · intro r hr
    cases hr
    have hincs : ∀ pre, Log m.current m.next p.next pre → ∀ i, Act.inc i ∈ pre → i ∈ m.currentInsts := by
      intro pre hl i hi
      obtain ⟨om, ho, hm⟩ := hl.incs i hi
      simp [Machine.currentInsts, ho, hm]
    cases hs with
    | failed pre rel acts res log stage acq nodup built origin =>
      refine .fail pre rel acts (by simpa using acq) (fun _ => rfl) res hpend stage (hincs pre log) ?_
      rcases built with hb | ⟨hb, he⟩
      · right
        intro i hi
        have hi' : i ∈ acquired pre := acq.mem_iff.mpr hi
        rcases mem_acquired.mp hi' with hr | hr
        · right
          intro pm hpm hne hm
          rcases List.mem_cons.mp hpm with rfl | hpm
          · exact hne hb
          · have := (h.sound pm hpm hne).fresh i hm
            have := (log.regs i hr).1
            omega
        · exact .inl (hincs pre log i hr)
      · exact .inl ⟨p.built, List.mem_cons_self .., hb, by rw [← he]; exact List.suffix_refl _⟩
    | ok pre acts d res log stage acq good origin =>
      exact .ok pre p.built acts (by simpa using acq) rfl d res hpend stage (hincs pre log) good (List.mem_cons_self ..)
    | noop acts d res built => exact .last (.inl acts) rfl rfl d res hpend
  · rw [hregs]
    change (m.regs ++ registers p.acts).Nodup
    have hn : m.regs.Nodup := (List.nodup_append.mp h.regsNodup).1
    rw [List.nodup_append]
    refine ⟨hn, hregsp.1, ?_⟩
    intro a ha b hb
    have := hold a ha
    have := hregsp.2 b hb
    omega
  · rw [hregs]
    change ∀ i ∈ m.regs ++ registers p.acts, i < p.next
    intro i hi
    rcases List.mem_append.mp hi with hi | hi
    · have := hold i hi; omega
    · exact (hregsp.2 i hi).2
  · exact h.dyn
  · intro pm hpm hne
    rcases List.mem_cons.mp hpm with rfl | hpm
    · cases hs with
      | failed pre rel acts res log stage acq nodup built origin =>
        rcases built with hb | hb
        · exact absurd hb hne
        · exact hb.1
      | ok pre acts d res log stage acq good origin => exact good
      | noop acts d res built => exact absurd built hne
    · exact (h.sound pm hpm hne).mono hle

/-- The invariant under the start of a call. -/
theorem InvL.call {cfg : Config} (hcfg : cfg.OK) {m : Machine} (h : InvL L cfg m) {k : Kind} {env : Env} (hk : refused cfg k = false)
    (hrun : m.running = none) :
    InvL L cfg { m.log (.called k) with
          next := (plan cfg env k m.current m.next).next
          builts := (plan cfg env k m.current m.next).built :: m.builts
          running := some { kind := k, todo := (plan cfg env k m.current m.next).acts, res := (plan cfg env k m.current m.next).res, phase := .idle, held := [] } } :=
  have hv := plan_view (env := env) (k := k) (old := m.current) (n0 := m.next) hcfg (fun om ho => (h.cur om ho).1)
  h.callPlan (hv.shape hk) hv.next_le hrun

end Hotswap
