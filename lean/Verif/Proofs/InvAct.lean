import Verif.Proofs.Inv

/-! The main invariant under the actions of the running call. -/

namespace Hotswap

variable [GoRuntime] {L : List Nat}

/-- The counts after an action of the loading part of a call. -/
def refsAfter (refs : Nat → Int) : Act → Nat → Int
  | .register i => upd refs i 1
  | .inc i => upd refs i (refs i + 1)
  | _ => refs

theorem perform_pre (cfg : Config) (m : Machine) {a : Act} (h : a.stage ≤ 6) :
    (m.log (.act a)).perform cfg a = { m.log (.act a) with refs := refsAfter m.refs a } := by
  cases a <;> simp [Act.stage] at h <;> rfl

omit [GoRuntime] in
theorem heldAfter_acquired {held : List Nat} {a : Act} (h : a.stage ≤ 6) (l : List Act) :
    (heldAfter held a ++ acquired l).Perm (held ++ acquired (a :: l)) := by
  cases a <;> simp [Act.stage] at h <;> first | exact List.Perm.refl _ | exact List.perm_middle.symm

theorem core_pre {m : Machine} {a : Act} {r : Running} (rest : List Act) (hrun : m.running = some r)
    (hs : a.stage ≤ 6) (h : m.CoreOK) (hreg : ∀ i, a = .register i → i ∉ m.regs) (hinc : ∀ i, a = .inc i → i ∈ m.holds) :
    Machine.CoreOK { m.log (.act a) with
        refs := refsAfter m.refs a
        running := some { r with todo := rest, held := heldAfter r.held a } } := by
  unfold Machine.CoreOK at *
  have e1 : ∀ (refs : Nat → Int) (run : Option Running), Machine.regs { m.log (.act a) with
        refs := refs
        running := run } = (m.log (.act a)).regs := fun _ _ => rfl
  have e2 : ∀ (refs : Nat → Int) (run : Option Running), Machine.begins { m.log (.act a) with
        refs := refs
        running := run } = (m.log (.act a)).begins := fun _ _ => rfl
  have e3 : ∀ (refs : Nat → Int) (run : Option Running), Machine.ends { m.log (.act a) with
        refs := refs
        running := run } = (m.log (.act a)).ends := fun _ _ => rfl
  rw [e1, e2, e3, regs_log, begins_log, ends_log]
  have hz : Machine.zs { m.log (.act a) with
        refs := refsAfter m.refs a
        running := some { r with todo := rest, held := heldAfter r.held a } } = m.zs := by
    simp [Machine.zs, Machine.log, hrun, runZs]
  have hi : Machine.ins { m.log (.act a) with
        refs := refsAfter m.refs a
        running := some { r with todo := rest, held := heldAfter r.held a } } = m.ins := by
    simp [Machine.ins, Machine.log, hrun, runIns]
  have hh : Machine.holds { m.log (.act a) with
        refs := refsAfter m.refs a
        running := some { r with todo := rest, held := heldAfter r.held a } } =
      m.frees.flatMap (·.todo) ++ (m.curHeld ++ (heldAfter r.held a ++ m.abandoned)) := by
    rfl
  have hh0 : m.holds = m.frees.flatMap (·.todo) ++ (m.curHeld ++ (r.held ++ m.abandoned)) := by
    simp [Machine.holds, hrun, runHeld]
  rw [hz, hi, hh]
  have move : ∀ i, (m.frees.flatMap (·.todo) ++ (m.curHeld ++ (i :: r.held ++ m.abandoned))).Perm (i :: m.holds) := by
    intro i
    rw [hh0, ← List.append_assoc, ← List.append_assoc (m.frees.flatMap _)]
    exact List.perm_middle
  cases a <;> simp [Act.stage] at hs <;> simp only [List.append_nil, refsAfter, heldAfter, Machine.log]
  case register i => exact (h.register (hreg i rfl)).congr (move i) (List.Perm.refl _) (List.Perm.refl _)
  case inc i => exact (h.inc (hinc i rfl)).congr (move i) (List.Perm.refl _) (List.Perm.refl _)
  all_goals exact hh0 ▸ h

/-- The part of the invariant that the actions of the loading part do not touch. -/
theorem InvL.pre {cfg : Config} {m : Machine} (h : InvL L cfg m) {a : Act} {r : Running} {rest : List Act} (hrun : m.running = some r)
    (htodo : r.todo = a :: rest) (hs : a.stage ≤ 6) (hinc : ∀ i, a = .inc i → i ∈ m.currentInsts) (hp : m.pending = none)
    (hr : RunOK cfg m { r with todo := rest, held := heldAfter r.held a }) :
    InvL L cfg { (m.log (.act a)).perform cfg a with
        running := some { r with todo := rest, held := heldAfter r.held a } } := by
  rw [perform_pre cfg m hs]
  have hregs : m.regs ++ registers (runTodo m.running) = (m.log (.act a)).regs ++ registers rest := by
    rw [regs_log, hrun]
    simp only [runTodo, htodo, List.append_assoc]
    congr 1
    cases a <;> rfl
  refine ⟨?_, h.cur, ?_, h.frees, ?_, ?_, ?_, h.dyn, h.sound⟩
  · refine core_pre rest hrun hs h.core ?_ ?_
    · rintro i rfl
      have hn := h.regsNodup
      rw [hrun] at hn
      simp only [runTodo, htodo, registers, List.filterMap_cons] at hn
      have := (List.nodup_append.mp hn).2.2
      intro hm
      exact this i hm i (List.mem_cons_self ..) rfl
    · intro i hi
      have := hinc i hi
      simp [Machine.holds, Machine.curHeld, hp, this]
  · intro h; cases h
  · intro r' hr'
    cases hr'
    exact hr.congr rfl rfl rfl rfl
  · change ((m.log (.act a)).regs ++ registers rest).Nodup
    rw [← hregs]; exact h.regsNodup
  · change ∀ i ∈ (m.log (.act a)).regs ++ registers rest, i < m.next
    rw [← hregs]; exact h.regsLt

/-- Splitting the next action off `pre ++ tail`. -/
theorem cons_of_append {α : Type} {pre tail rest : List α} {a : α} (h : pre ++ tail = a :: rest) :
    (∃ pre', pre = a :: pre' ∧ rest = pre' ++ tail) ∨ (pre = [] ∧ tail = a :: rest) := by
  cases pre with
  | nil => exact .inr ⟨rfl, h⟩
  | cons b p =>
    simp at h
    exact .inl ⟨p, by rw [h.1], h.2.symm⟩

/-- The start of the delayed free. -/
theorem InvL.spawn {cfg : Config} {m : Machine} (h : InvL L cfg m) {om new : Manager} {r : Running} {rest : List Act} (hrun : m.running = some r)
    (htodo : r.todo = .spawnFree om :: rest) (hom : m.current = some om) (hrest : rest = .publish new :: countActs r.kind)
    (hst : cfg.static.isSome = false)
    (hheld : r.held.Perm new.insts) (hidle : r.phase = .idle) (d : Details) (hres : r.res = .ok d) (hp : m.pending = none)
    (hgood : SoundManager m.next new) (hbuilt : new ∈ m.builts) :
    InvL L cfg { (m.log (.act (.spawnFree om))).perform cfg (.spawnFree om) with
        running := some { r with todo := rest, held := heldAfter r.held (.spawnFree om) } } := by
  obtain ⟨hg, hb⟩ := h.cur om hom
  have hregs : m.regs ++ registers (runTodo m.running) = (m.log (.act (.spawnFree om))).regs ++ registers rest := by
    rw [regs_log, hrun]
    simp [runTodo, htodo, registers]
  have hregs0 : (m.log (.act (.spawnFree om))).regs = m.regs := by rw [regs_log]; simp
  have hbeg0 : (m.log (.act (.spawnFree om))).begins = m.begins := by rw [begins_log]; simp
  have hend0 : (m.log (.act (.spawnFree om))).ends = m.ends := by rw [ends_log]; simp
  refine ⟨?_, h.cur, ?_, ?_, ?_, ?_, ?_, h.dyn, h.sound⟩
  · have hc := h.core
    unfold Machine.CoreOK at *
    change Core m.refs m.once _ _ _ (m.log (.act (.spawnFree om))).regs (m.log (.act (.spawnFree om))).begins (m.log (.act (.spawnFree om))).ends
    rw [hregs0, hbeg0, hend0]
    refine hc.congr ?_ ?_ ?_
    · have e : m.holds = m.frees.flatMap (·.todo) ++ (om.insts ++ (r.held ++ m.abandoned)) := by
        simp [Machine.holds, Machine.curHeld, hp, Machine.currentInsts, hom, hrun, runHeld]
      rw [e]
      simp only [Machine.holds, Machine.curHeld, Machine.perform, Machine.log, runHeld, heldAfter, List.flatMap_append, List.flatMap_cons, List.flatMap_nil,
        List.append_nil, Option.isSome_some, if_true, List.nil_append, List.append_assoc]
      exact List.Perm.append_left _ (List.Perm.append_right _ hg.release_perm)
    · simp [Machine.zs, Machine.perform, Machine.log, hrun, runZs, Phase.zs]
    · simp [Machine.ins, Machine.perform, Machine.log, hrun, runIns, Phase.ins]
  · intro h; cases h
  · intro t ht
    have : t ∈ m.frees ++ [{ due := m.now + cfg.delay, todo := om.releaseList, phase := .idle }] := ht
    rcases List.mem_append.mp this with ht | ht
    · exact h.frees t ht
    · simp only [List.mem_singleton] at ht
      subst ht
      exact ⟨om, hb, hg, List.suffix_refl _⟩
  · intro r' hr'
    cases hr'
    exact .spawned new hst hrest hheld hidle d hres rfl hgood hbuilt
  · change ((m.log (.act (.spawnFree om))).regs ++ registers rest).Nodup
    rw [← hregs]; exact h.regsNodup
  · change ∀ i ∈ (m.log (.act (.spawnFree om))).regs ++ registers rest, i < m.next
    rw [← hregs]; exact h.regsLt

/-- Publication. -/
theorem InvL.publish {cfg : Config} {m : Machine} (h : InvL L cfg m) {new : Manager} {r : Running} {rest : List Act} (hrun : m.running = some r)
    (htodo : r.todo = .publish new :: rest) (hrest : rest = countActs r.kind)
    (hst : cfg.static.isSome = false → m.pending.isSome = true ∨ m.current = none)
    (hheld : r.held.Perm new.insts) (hidle : r.phase = .idle) (d : Details) (hres : r.res = .ok d)
    (hgood : SoundManager m.next new) (hbuilt : new ∈ m.builts) :
    InvL L cfg { (m.log (.act (.publish new))).perform cfg (.publish new) with
        running := some { r with todo := rest, held := heldAfter r.held (.publish new) } } := by
  have hregs : m.regs ++ registers (runTodo m.running) = (m.log (.act (.publish new))).regs ++ registers rest := by
    rw [regs_log, hrun]
    simp [runTodo, htodo, registers]
  have hregs0 : (m.log (.act (.publish new))).regs = m.regs := by rw [regs_log]; simp
  have hbeg0 : (m.log (.act (.publish new))).begins = m.begins := by rw [begins_log]; simp
  have hend0 : (m.log (.act (.publish new))).ends = m.ends := by rw [ends_log]; simp
  refine ⟨?_, ?_, ?_, h.frees, ?_, ?_, ?_, ?_, h.sound⟩
  · have hc := h.core
    unfold Machine.CoreOK at *
    change Core m.refs m.once _ _ _ (m.log (.act (.publish new))).regs (m.log (.act (.publish new))).begins (m.log (.act (.publish new))).ends
    rw [hregs0, hbeg0, hend0]
    refine hc.congr ?_ ?_ ?_
    · have e : m.holds = m.frees.flatMap (·.todo) ++ (m.curHeld ++ (r.held ++ m.abandoned)) := by
        simp [Machine.holds, hrun, runHeld]
      rw [e]
      have e' : Machine.holds { (m.log (.act (.publish new))).perform cfg (.publish new) with
        running := some { r with todo := rest, held := heldAfter r.held (.publish new) } } =
          m.frees.flatMap (·.todo) ++ (new.insts ++ (m.curHeld ++ m.abandoned)) := by
        change m.frees.flatMap (·.todo) ++ (new.insts ++ ([] ++ (if m.pending.isSome then m.abandoned else m.currentInsts ++ m.abandoned))) = _
        unfold Machine.curHeld
        split <;> simp
      rw [e']
      refine List.Perm.append_left _ ?_
      refine (List.Perm.append_right _ hheld.symm).trans ?_
      rw [← List.append_assoc, ← List.append_assoc]
      exact List.Perm.append_right _ List.perm_append_comm
    · simp [Machine.zs, Machine.perform, Machine.log, hrun, runZs]
    · simp [Machine.ins, Machine.perform, Machine.log, hrun, runIns]
  · intro pm hpm
    have : some new = some pm := hpm
    cases this
    exact ⟨hgood, hbuilt⟩
  · intro h; cases h
  · intro r' hr'
    cases hr'
    exact .last (.inl hrest) rfl hidle d hres rfl
  · change ((m.log (.act (.publish new))).regs ++ registers rest).Nodup
    rw [← hregs]; exact h.regsNodup
  · change ∀ i ∈ (m.log (.act (.publish new))).regs ++ registers rest, i < m.next
    rw [← hregs]; exact h.regsLt
  · intro hd
    have ha := h.dyn hd
    change (if m.pending.isSome then m.abandoned else m.currentInsts ++ m.abandoned) = L
    rcases hst hd with h1 | h1
    · rw [if_pos h1]; exact ha
    · split
      · exact ha
      · simp [ha, Machine.currentInsts, h1]

/-- The counter. -/
theorem InvL.count {cfg : Config} {m : Machine} (h : InvL L cfg m) {r : Running} {rest : List Act} (hrun : m.running = some r)
    (htodo : r.todo = .count :: rest) (hrest : rest = [])
    (hheld : r.held = []) (hidle : r.phase = .idle) (d : Details) (hres : r.res = .ok d) (hp : m.pending = none) :
    InvL L cfg { (m.log (.act .count)).perform cfg .count with
        running := some { r with todo := rest, held := heldAfter r.held .count } } := by
  have hregs : m.regs ++ registers (runTodo m.running) = (m.log (.act .count)).regs ++ registers rest := by
    rw [regs_log, hrun]
    simp [runTodo, htodo, registers]
  have hregs0 : (m.log (.act .count)).regs = m.regs := by rw [regs_log]; simp
  have hbeg0 : (m.log (.act .count)).begins = m.begins := by rw [begins_log]; simp
  have hend0 : (m.log (.act .count)).ends = m.ends := by rw [ends_log]; simp
  refine ⟨?_, h.cur, ?_, h.frees, ?_, ?_, ?_, h.dyn, h.sound⟩
  · have hc := h.core
    unfold Machine.CoreOK at *
    change Core m.refs m.once _ _ _ (m.log (.act .count)).regs (m.log (.act .count)).begins (m.log (.act .count)).ends
    rw [hregs0, hbeg0, hend0]
    refine hc.congr ?_ ?_ ?_
    · simp [Machine.holds, Machine.curHeld, Machine.currentInsts, Machine.perform, Machine.log, hrun, runHeld, heldAfter]
    · simp [Machine.zs, Machine.perform, Machine.log, hrun, runZs]
    · simp [Machine.ins, Machine.perform, Machine.log, hrun, runIns]
  · intro h; cases h
  · intro r' hr'
    cases hr'
    exact .last (.inr hrest) hheld hidle d hres hp
  · change ((m.log (.act .count)).regs ++ registers rest).Nodup
    rw [← hregs]; exact h.regsNodup
  · change ∀ i ∈ (m.log (.act .count)).regs ++ registers rest, i < m.next
    rw [← hregs]; exact h.regsLt

theorem InvL.act {cfg : Config} {m : Machine} (h : InvL L cfg m) {a : Act} {r : Running} {rest : List Act} (hrun : m.running = some r)
    (htodo : r.todo = a :: rest) (plain : ∀ i, a ≠ .release i) :
    InvL L cfg { (m.log (.act a)).perform cfg a with
        running := some { r with todo := rest, held := heldAfter r.held a } } := by
  cases h.run r hrun with
  | fail pre rel todo held idle res pending stage incs order =>
    rw [htodo] at todo
    rcases cons_of_append todo.symm with ⟨pre', rfl, hr⟩ | ⟨_, hr⟩
    · have hs := stage a (List.mem_cons_self ..)
      refine h.pre hrun htodo hs (fun i hi => incs i (by simp [hi])) pending ?_
      exact .fail pre' rel hr ((heldAfter_acquired hs pre').trans held) (fun _ => idle (by simp)) res pending
        (fun b hb => stage b (List.mem_cons_of_mem _ hb)) (fun i hi => incs i (List.mem_cons_of_mem _ hi)) order
    · cases rel with
      | nil => cases hr
      | cons i rel' => simp at hr; exact absurd hr.1.symm (plain i)
  | ok pre new todo held idle d res pending stage incs good built =>
    rw [htodo] at todo
    rcases cons_of_append todo.symm with ⟨pre', rfl, hr⟩ | ⟨hpre, hr⟩
    · have hs := stage a (List.mem_cons_self ..)
      refine h.pre hrun htodo hs (fun i hi => incs i (by simp [hi])) pending ?_
      exact .ok pre' new hr ((heldAfter_acquired hs pre').trans held) idle d res pending
        (fun b hb => stage b (List.mem_cons_of_mem _ hb)) (fun i hi => incs i (List.mem_cons_of_mem _ hi)) good built
    · subst hpre
      simp only [acquired, List.filterMap_nil, List.append_nil] at held
      cases hst : cfg.static.isSome with
      | true =>
        rw [hst] at hr
        simp at hr
        obtain ⟨rfl, hr⟩ := hr
        exact h.publish hrun htodo hr.symm (by simp [hst]) held idle d res good built
      | false =>
        rw [hst] at hr
        cases hc : m.current with
        | none =>
          simp [hc, spawnActs] at hr
          obtain ⟨rfl, hr⟩ := hr
          exact h.publish hrun htodo hr.symm (fun _ => .inr hc) held idle d res good built
        | some om =>
          simp [hc, spawnActs] at hr
          obtain ⟨rfl, hr⟩ := hr
          exact h.spawn hrun htodo hc hr.symm hst held idle d res pending good built
  | spawned new dyn todo held idle d res pending good built =>
    rw [htodo] at todo
    simp at todo
    obtain ⟨rfl, hr⟩ := todo
    exact h.publish hrun htodo hr (fun _ => .inl pending) held idle d res good built
  | last todo held idle d res pending =>
    rw [htodo] at todo
    rcases todo with todo | todo
    · have : a = .count ∧ rest = [] := by
        cases hk : r.kind with
        | load => rw [hk] at todo; simp [countActs] at todo
        | reload e =>
          rw [hk] at todo
          simpa [countActs] using todo
      obtain ⟨rfl, hr⟩ := this
      exact h.count hrun htodo hr held idle d res pending
    · simp at todo

end Hotswap
