import Verif.Proofs.InvAct

/-! The main invariant holds in every reachable state. -/

namespace Hotswap

variable [GoRuntime] {L : List Nat}

omit [GoRuntime] in
theorem ite_zs (i : Nat) (c : Prop) [Decidable c] (l : List Nat) :
    (if c then Phase.idle else Phase.zero i).zs ++ l = if c then l else i :: l := by
  split <;> rfl

omit [GoRuntime] in
theorem ite_ins (i : Nat) (c : Prop) [Decidable c] : (if c then Phase.idle else Phase.zero i).ins = [] := by
  split <;> rfl

/-- In the releasing part of a call. -/
theorem InvL.releasing {cfg : Config} {m : Machine} (h : InvL L cfg m) {r : Running} (hrun : m.running = some r)
    (hx : (∃ i rest, r.todo = .release i :: rest) ∨ r.phase ≠ .idle) :
    ∃ rel, r.todo = rel.map Act.release ∧ r.held.Perm rel ∧ (∀ d, r.res ≠ .ok d) ∧ m.pending = none ∧ OrderOK m (r.phase.insts ++ rel) := by
  have hno7 : ∀ {i : Nat} {rest l : List Act}, r.todo = .release i :: rest → r.todo = l → (∀ j, Act.release j ∉ l) → False := by
    intro i rest l h1 h2 h3
    exact h3 i (by rw [← h2, h1]; exact List.mem_cons_self ..)
  cases h.run r hrun with
  | fail pre rel todo held idle res pending stage incs order =>
    have hpre : pre = [] := by
      rcases hx with ⟨i, rest, ht⟩ | hx
      · cases pre with
        | nil => rfl
        | cons a p =>
          rw [ht] at todo
          simp at todo
          have := stage a (List.mem_cons_self ..)
          rw [← todo.1] at this
          simp [Act.stage] at this
      · by_contra hne; exact hx (idle hne)
    subst hpre
    exact ⟨rel, todo, by simpa [acquired] using held, res, pending, order⟩
  | ok pre new todo held idle d res pending stage incs good built =>
    rcases hx with ⟨i, rest, ht⟩ | hx
    · exact (hno7 ht todo (by
        intro j hj
        rcases List.mem_append.mp hj with hj | hj
        · have := stage _ hj; simp [Act.stage] at this
        · simp only [List.mem_append, List.mem_cons] at hj
          rcases hj with hj | hj | hj
          · split at hj
            · cases hj
            · cases hc : m.current with
              | none => rw [hc] at hj; cases hj
              | some om => rw [hc] at hj; simp [spawnActs] at hj
          · cases hj
          · cases hk : r.kind <;> simp [hk, countActs] at hj)).elim
    · exact absurd idle hx
  | spawned new dyn todo held idle d res pending good built =>
    rcases hx with ⟨i, rest, ht⟩ | hx
    · exact (hno7 ht todo (by
        intro j hj
        rcases List.mem_cons.mp hj with hj | hj
        · cases hj
        · cases hk : r.kind <;> simp [hk, countActs] at hj)).elim
    · exact absurd idle hx
  | last todo held idle d res pending =>
    rcases hx with ⟨i, rest, ht⟩ | hx
    · rcases todo with todo | todo
      · exact (hno7 ht todo (by
          intro j hj
          cases hk : r.kind <;> simp [hk, countActs] at hj)).elim
      · rw [ht] at todo; cases todo
    · exact absurd idle hx

theorem InvL.release {cfg : Config} {m : Machine} (h : InvL L cfg m) {r : Running} {i : Nat} {rest : List Act} (hrun : m.running = some r)
    (hphase : r.phase = .idle) (htodo : r.todo = .release i :: rest) :
    InvL L cfg { m.log (.act (.release i)) with
        refs := upd m.refs i (m.refs i - 1)
        running := some { r with todo := rest, phase := if m.refs i - 1 > 0 then .idle else .zero i, held := r.held.erase i } } := by
  obtain ⟨rel, ht, hheld, hres, hpend, horder⟩ := h.releasing hrun (.inl ⟨i, rest, htodo⟩)
  rw [htodo] at ht
  cases rel with
  | nil => cases ht
  | cons j rel' =>
    simp at ht
    obtain ⟨rfl, hrest⟩ := ht
    have hregs : m.regs ++ registers (runTodo m.running) = (m.log (.act (.release i))).regs ++ registers rest := by
      rw [regs_log, hrun]
      simp [runTodo, htodo, registers]
    have hregs0 : (m.log (.act (.release i))).regs = m.regs := by rw [regs_log]; simp
    have hbeg0 : (m.log (.act (.release i))).begins = m.begins := by rw [begins_log]; simp
    have hend0 : (m.log (.act (.release i))).ends = m.ends := by rw [ends_log]; simp
    have herase : (r.held.erase i).Perm rel' := by
      have := hheld.erase i
      simpa using this
    refine ⟨?_, h.cur, ?_, h.frees, ?_, ?_, ?_, h.dyn, h.sound⟩
    · have hc := h.core
      unfold Machine.CoreOK at *
      change Core (upd m.refs i (m.refs i - 1)) m.once _ _ _ (m.log (.act (.release i))).regs (m.log (.act (.release i))).begins (m.log (.act (.release i))).ends
      rw [hregs0, hbeg0, hend0]
      have hmem : i ∈ r.held := hheld.mem_iff.mpr (List.mem_cons_self ..)
      have hp : (i :: (m.frees.flatMap (·.todo) ++ (m.curHeld ++ (r.held.erase i ++ m.abandoned)))).Perm m.holds := by
        have e : m.holds = m.frees.flatMap (·.todo) ++ (m.curHeld ++ (r.held ++ m.abandoned)) := by
          simp [Machine.holds, hrun, runHeld]
        rw [e]
        refine (List.perm_middle.symm.trans ?_)
        refine List.Perm.append_left _ ?_
        refine (List.perm_middle.symm.trans ?_)
        refine List.Perm.append_left _ ?_
        rw [← List.cons_append]
        exact List.Perm.append_right _ (List.perm_cons_erase hmem).symm
      have hd := (hc.congr hp (List.Perm.refl _) (List.Perm.refl _)).dec
      have hz0 : m.zs = m.frees.flatMap (·.phase.zs) := by simp [Machine.zs, hrun, runZs, hphase, Phase.zs]
      have hi0 : m.ins = m.frees.flatMap (·.phase.ins) := by simp [Machine.ins, hrun, runIns, hphase, Phase.ins]
      rw [hz0, hi0] at hd
      refine hd.congr (List.Perm.refl _) ?_ ?_
      · change ((if m.refs i - 1 > 0 then Phase.idle else Phase.zero i).zs ++ m.frees.flatMap (·.phase.zs)).Perm _
        rw [ite_zs]
      · change ((if m.refs i - 1 > 0 then Phase.idle else Phase.zero i).ins ++ m.frees.flatMap (·.phase.ins)).Perm _
        rw [ite_ins]; simp
    · intro h; cases h
    · intro r' hr'
      cases hr'
      exact .fail [] rel' (by simpa using hrest) (by simpa [acquired] using herase) (by simp) hres hpend (by simp) (by simp) (by
        refine OrderOK.congr (OrderOK.suffix horder ?_) rfl rfl rfl
        rw [hphase]
        change (if m.refs i - 1 > 0 then Phase.idle else Phase.zero i).insts ++ rel' <:+ i :: rel'
        split
        · exact List.suffix_cons ..
        · exact List.suffix_refl _)
    · change ((m.log (.act (.release i))).regs ++ registers rest).Nodup
      rw [← hregs]; exact h.regsNodup
    · change ∀ j ∈ (m.log (.act (.release i))).regs ++ registers rest, j < m.next
      rw [← hregs]; exact h.regsLt

/-- A change of the running call's phase and of trace and `once`, where the core is given. -/
theorem InvL.runPhase {cfg : Config} {m m' : Machine} (h : InvL L cfg m) {r : Running} {ph : Phase} (hrun : m.running = some r)
    (hne : r.phase ≠ .idle) (hph : ph.insts <:+ r.phase.insts) (hrun' : m'.running = some { r with phase := ph }) (hcore : m'.CoreOK) (hr : m'.regs = m.regs)
    (hn : m'.next = m.next) (hc : m'.current = m.current)
    (hf : m'.frees = m.frees) (hp : m'.pending = m.pending) (ha : m'.abandoned = m.abandoned) (hbu : m'.builts = m.builts) : InvL L cfg m' := by
  obtain ⟨rel, ht, hheld, hres, hpend, horder⟩ := h.releasing hrun (.inr hne)
  have hrt : runTodo m'.running = runTodo m.running := by rw [hrun, hrun']; rfl
  refine ⟨hcore, ?_, ?_, ?_, ?_, ?_, ?_, ?_, ?_⟩
  · rw [hc, hn, hbu]; exact h.cur
  · rw [hrun']; simp
  · rw [hf, hn, hbu]; exact h.frees
  · intro r' hr'
    rw [hrun'] at hr'
    cases hr'
    exact .fail [] rel (by simpa using ht) (by simpa [acquired] using hheld) (by simp) hres (hp ▸ hpend) (by simp) (by simp) (by
      refine OrderOK.congr (OrderOK.suffix horder ?_) hc hn hbu
      obtain ⟨x, hx⟩ := hph
      exact ⟨x, by rw [← hx, List.append_assoc]⟩)
  · rw [hr, hrt]; exact h.regsNodup
  · rw [hr, hrt, hn]; exact h.regsLt
  · rw [ha]; exact h.dyn
  · rw [hbu, hn]; exact h.sound

theorem InvL.runBegin {cfg : Config} {m : Machine} (h : InvL L cfg m) {r : Running} {i : Nat} (hrun : m.running = some r) (hphase : r.phase = .zero i) :
    InvL L cfg { m.log (.freeBegin i) with
        once := upd m.once i true
        running := some { r with phase := .inside i } } := by
  refine h.runPhase hrun (by simp [hphase]) (by rw [hphase]; first | exact List.suffix_refl _ | exact List.nil_suffix) rfl ?_ ?_ rfl rfl rfl rfl rfl rfl
  · have hc := h.core
    unfold Machine.CoreOK at *
    change Core m.refs (upd m.once i true) _ _ _ (m.log (.freeBegin i)).regs (m.log (.freeBegin i)).begins (m.log (.freeBegin i)).ends
    rw [regs_log, begins_log, ends_log]
    simp only [List.append_nil]
    have hz : m.zs = i :: m.frees.flatMap (·.phase.zs) := by simp [Machine.zs, hrun, runZs, hphase, Phase.zs]
    have hi : m.ins = m.frees.flatMap (·.phase.ins) := by simp [Machine.ins, hrun, runIns, hphase, Phase.ins]
    rw [hz, hi] at hc
    have := hc.start.2.2.2.2
    have hh : m.holds = m.frees.flatMap (·.todo) ++ (m.curHeld ++ (r.held ++ m.abandoned)) := by simp [Machine.holds, hrun, runHeld]
    rw [hh] at this
    exact this
  · change (m.log (.freeBegin i)).regs = m.regs
    rw [regs_log]; simp

theorem InvL.runEnd {cfg : Config} {m : Machine} (h : InvL L cfg m) {r : Running} {i : Nat} (hrun : m.running = some r) (hphase : r.phase = .inside i) :
    InvL L cfg { m.log (.freeEnd i) with running := some { r with phase := .idle } } := by
  refine h.runPhase hrun (by simp [hphase]) (by rw [hphase]; first | exact List.suffix_refl _ | exact List.nil_suffix) rfl ?_ ?_ rfl rfl rfl rfl rfl rfl
  · have hc := h.core
    unfold Machine.CoreOK at *
    change Core m.refs m.once _ _ _ (m.log (.freeEnd i)).regs (m.log (.freeEnd i)).begins (m.log (.freeEnd i)).ends
    rw [regs_log, begins_log, ends_log]
    simp only [List.append_nil]
    have hz : m.zs = m.frees.flatMap (·.phase.zs) := by simp [Machine.zs, hrun, runZs, hphase, Phase.zs]
    have hi : m.ins = i :: m.frees.flatMap (·.phase.ins) := by simp [Machine.ins, hrun, runIns, hphase, Phase.ins]
    rw [hz, hi] at hc
    have := hc.stop
    have hh : m.holds = m.frees.flatMap (·.todo) ++ (m.curHeld ++ (r.held ++ m.abandoned)) := by simp [Machine.holds, hrun, runHeld]
    rw [hh] at this
    exact this
  · change (m.log (.freeEnd i)).regs = m.regs
    rw [regs_log]; simp

theorem InvL.ret {cfg : Config} {m : Machine} (h : InvL L cfg m) {r : Running} (hrun : m.running = some r) (htodo : r.todo = []) (hphase : r.phase = .idle) :
    InvL L cfg { m.log (.returned r.kind r.res) with running := none } := by
  have hrest : r.held = [] ∧ m.pending = none := by
    cases h.run r hrun with
    | fail pre rel todo held idle res pending stage incs order =>
      rw [htodo] at todo
      have := todo.symm
      simp at this
      obtain ⟨rfl, rfl⟩ := this
      exact ⟨by simpa [acquired] using held, pending⟩
    | ok pre new todo held idle d res pending stage incs good built =>
      rw [htodo] at todo
      have := todo.symm
      simp at this
    | spawned new dyn todo held idle d res pending good built => rw [htodo] at todo; cases todo
    | last todo held idle d res pending => exact ⟨held, pending⟩
  have hregs0 : (m.log (.returned r.kind r.res)).regs = m.regs := by rw [regs_log]; simp
  have hbeg0 : (m.log (.returned r.kind r.res)).begins = m.begins := by rw [begins_log]; simp
  have hend0 : (m.log (.returned r.kind r.res)).ends = m.ends := by rw [ends_log]; simp
  have hreg : m.regs ++ registers (runTodo m.running) = m.regs := by rw [hrun]; simp [runTodo, htodo, registers]
  refine ⟨?_, h.cur, fun _ => hrest.2, h.frees, ?_, ?_, ?_, h.dyn, h.sound⟩
  · have hc := h.core
    unfold Machine.CoreOK at *
    change Core m.refs m.once _ _ _ (m.log (.returned r.kind r.res)).regs (m.log (.returned r.kind r.res)).begins (m.log (.returned r.kind r.res)).ends
    rw [hregs0, hbeg0, hend0]
    have hh : m.holds = m.frees.flatMap (·.todo) ++ (m.curHeld ++ ([] ++ m.abandoned)) := by simp [Machine.holds, hrun, runHeld, hrest.1]
    have hz : m.zs = [] ++ m.frees.flatMap (·.phase.zs) := by simp [Machine.zs, hrun, runZs, hphase, Phase.zs]
    have hi : m.ins = [] ++ m.frees.flatMap (·.phase.ins) := by simp [Machine.ins, hrun, runIns, hphase, Phase.ins]
    rw [hh, hz, hi] at hc
    exact hc
  · intro r' hr'; cases hr'
  · change ((m.log (.returned r.kind r.res)).regs ++ []).Nodup
    rw [List.append_nil, hregs0, ← hreg]; exact h.regsNodup
  · change ∀ i ∈ (m.log (.returned r.kind r.res)).regs ++ [], i < m.next
    rw [List.append_nil, hregs0, ← hreg]; exact h.regsLt

/-- A step of a free goroutine. -/
theorem InvL.freeTask {cfg : Config} {m m' : Machine} (h : InvL L cfg m) {t t' : FreeTask} {x y : List FreeTask} (hf : m.frees = x ++ t :: y)
    (hf' : m'.frees = x ++ t' :: y) (hsuf : (t'.phase.insts ++ t'.todo) <:+ (t.phase.insts ++ t.todo)) (hcore : m'.CoreOK) (hr : m'.regs = m.regs)
    (hn : m'.next = m.next) (hc : m'.current = m.current)
    (hrun : m'.running = m.running) (hp : m'.pending = m.pending) (ha : m'.abandoned = m.abandoned) (hbu : m'.builts = m.builts) : InvL L cfg m' := by
  refine ⟨hcore, ?_, ?_, ?_, ?_, ?_, ?_, ?_, ?_⟩
  · rw [hc, hn, hbu]; exact h.cur
  · rw [hrun, hp]; exact h.idle
  · intro u hu
    rw [hf'] at hu
    rw [hn, hbu]
    rcases List.mem_append.mp hu with hu | hu
    · exact h.frees u (by rw [hf]; exact List.mem_append_left _ hu)
    · rcases List.mem_cons.mp hu with rfl | hu
      · obtain ⟨pm, h1, h2, h3⟩ := h.frees t (by rw [hf]; simp)
        exact ⟨pm, h1, h2, hsuf.trans h3⟩
      · exact h.frees u (by rw [hf]; simp [hu])
  · intro r hr'
    rw [hrun] at hr'
    exact (h.run r hr').congr hc hp hn hbu
  · rw [hr, hrun]; exact h.regsNodup
  · rw [hr, hrun, hn]; exact h.regsLt
  · rw [ha]; exact h.dyn
  · rw [hbu, hn]; exact h.sound

omit [GoRuntime] in
theorem flatMap_mid {α : Type} (g : α → List Nat) (x y : List α) (t : α) :
    ((x ++ t :: y).flatMap g).Perm (g t ++ (x.flatMap g ++ y.flatMap g)) := by
  simp only [List.flatMap_append, List.flatMap_cons]
  rw [← List.append_assoc, ← List.append_assoc]
  exact List.Perm.append_right _ List.perm_append_comm

theorem InvL.freeDec {cfg : Config} {m : Machine} (h : InvL L cfg m) {t : FreeTask} {x y : List FreeTask} {i : Nat} {rest : List Nat}
    (hf : m.frees = x ++ t :: y) (hphase : t.phase = .idle) (htodo : t.todo = i :: rest) :
    InvL L cfg { m with
        refs := upd m.refs i (m.refs i - 1)
        frees := x ++ { t with todo := rest, phase := if m.refs i - 1 > 0 then .idle else .zero i } :: y } := by
  refine h.freeTask hf rfl ?_ ?_ rfl rfl rfl rfl rfl rfl rfl
  · rw [hphase, htodo]
    split
    · exact List.suffix_cons i rest
    · exact List.suffix_refl _
  · have hc := h.core
    unfold Machine.CoreOK at *
    have hp : (i :: (rest ++ (x.flatMap (·.todo) ++ y.flatMap (·.todo)) ++ (m.curHeld ++ (runHeld m.running ++ m.abandoned)))).Perm m.holds := by
      unfold Machine.holds
      rw [hf, ← List.cons_append, ← List.cons_append, ← htodo]
      exact List.Perm.append_right _ (flatMap_mid (·.todo) x y t).symm
    have hd := (hc.congr hp (List.Perm.refl _) (List.Perm.refl _)).dec
    refine hd.congr ?_ ?_ ?_
    · change ((x ++ _ :: y).flatMap (·.todo) ++ (m.curHeld ++ (runHeld m.running ++ m.abandoned))).Perm _
      exact List.Perm.append_right _ (flatMap_mid (·.todo) x y _)
    · change (runZs m.running ++ (x ++ _ :: y).flatMap (·.phase.zs)).Perm _
      refine (List.Perm.append_left _ (flatMap_mid (·.phase.zs) x y _)).trans ?_
      have e : m.zs = runZs m.running ++ (x ++ t :: y).flatMap (·.phase.zs) := by simp [Machine.zs, hf]
      have hz : m.zs.Perm (runZs m.running ++ (x.flatMap (·.phase.zs) ++ y.flatMap (·.phase.zs))) := by
        rw [e]
        refine List.Perm.append_left _ ((flatMap_mid (·.phase.zs) x y t).trans ?_)
        simp [hphase, Phase.zs]
      simp only [ite_zs]
      split
      · exact hz.symm
      · exact List.perm_middle.trans (List.Perm.cons _ hz.symm)
    · change (runIns m.running ++ (x ++ _ :: y).flatMap (·.phase.ins)).Perm _
      have e : m.ins = runIns m.running ++ (x ++ t :: y).flatMap (·.phase.ins) := by simp [Machine.ins, hf]
      rw [e]
      have e2 : t.phase.ins = [] := by rw [hphase]; rfl
      simp only [List.flatMap_append, List.flatMap_cons, ite_ins, e2]
      exact List.Perm.refl _

theorem InvL.freeBegin {cfg : Config} {m : Machine} (h : InvL L cfg m) {t : FreeTask} {x y : List FreeTask} {i : Nat}
    (hf : m.frees = x ++ t :: y) (hphase : t.phase = .zero i) :
    InvL L cfg { m.log (.freeBegin i) with
        once := upd m.once i true
        frees := x ++ { t with phase := .inside i } :: y } := by
  refine h.freeTask hf rfl ?_ ?_ ?_ rfl rfl rfl rfl rfl rfl
  · simp [hphase, Phase.insts]
  · have hc := h.core
    unfold Machine.CoreOK at *
    change Core m.refs (upd m.once i true) _ _ _ (m.log (.freeBegin i)).regs (m.log (.freeBegin i)).begins (m.log (.freeBegin i)).ends
    rw [regs_log, begins_log, ends_log]
    simp only [List.append_nil]
    have hz : (i :: (runZs m.running ++ (x.flatMap (·.phase.zs) ++ y.flatMap (·.phase.zs)))).Perm m.zs := by
      have e : m.zs = runZs m.running ++ (x ++ t :: y).flatMap (·.phase.zs) := by simp [Machine.zs, hf]
      rw [e]
      refine List.perm_middle.symm.trans (List.Perm.append_left _ ?_)
      refine List.Perm.symm ((flatMap_mid (·.phase.zs) x y t).trans ?_)
      simp [hphase, Phase.zs]
    have := (hc.congr (List.Perm.refl _) hz (List.Perm.refl _)).start.2.2.2.2
    refine this.congr ?_ ?_ ?_
    · have e : m.holds = (x ++ t :: y).flatMap (·.todo) ++ (m.curHeld ++ (runHeld m.running ++ m.abandoned)) := by simp [Machine.holds, hf]
      rw [e]
      change ((x ++ _ :: y).flatMap (·.todo) ++ (m.curHeld ++ (runHeld m.running ++ m.abandoned))).Perm _
      simp only [List.flatMap_append, List.flatMap_cons]
      exact List.Perm.refl _
    · change (runZs m.running ++ (x ++ _ :: y).flatMap (·.phase.zs)).Perm _
      refine (List.Perm.append_left _ (flatMap_mid (·.phase.zs) x y _)).trans ?_
      simp [Phase.zs]
    · change (runIns m.running ++ (x ++ _ :: y).flatMap (·.phase.ins)).Perm _
      have e : m.ins = runIns m.running ++ (x ++ t :: y).flatMap (·.phase.ins) := by simp [Machine.ins, hf]
      rw [e]
      simp only [List.flatMap_append, List.flatMap_cons, hphase, Phase.ins, List.nil_append, List.cons_append]
      rw [← List.append_assoc, ← List.append_assoc]
      exact List.perm_middle
  · change (m.log (.freeBegin i)).regs = m.regs
    rw [regs_log]; simp

theorem InvL.freeEnd {cfg : Config} {m : Machine} (h : InvL L cfg m) {t : FreeTask} {x y : List FreeTask} {i : Nat}
    (hf : m.frees = x ++ t :: y) (hphase : t.phase = .inside i) :
    InvL L cfg { m.log (.freeEnd i) with frees := x ++ { t with phase := .idle } :: y } := by
  refine h.freeTask hf rfl ?_ ?_ ?_ rfl rfl rfl rfl rfl rfl
  · simp only [hphase, Phase.insts, List.nil_append, List.cons_append]
    exact List.suffix_cons _ _
  · have hc := h.core
    unfold Machine.CoreOK at *
    change Core m.refs m.once _ _ _ (m.log (.freeEnd i)).regs (m.log (.freeEnd i)).begins (m.log (.freeEnd i)).ends
    rw [regs_log, begins_log, ends_log]
    simp only [List.append_nil]
    have hi : (i :: (runIns m.running ++ (x.flatMap (·.phase.ins) ++ y.flatMap (·.phase.ins)))).Perm m.ins := by
      have e : m.ins = runIns m.running ++ (x ++ t :: y).flatMap (·.phase.ins) := by simp [Machine.ins, hf]
      rw [e]
      refine List.perm_middle.symm.trans (List.Perm.append_left _ ?_)
      refine List.Perm.symm ((flatMap_mid (·.phase.ins) x y t).trans ?_)
      simp [hphase, Phase.ins]
    have := (hc.congr (List.Perm.refl _) (List.Perm.refl _) hi).stop
    refine this.congr ?_ ?_ ?_
    · have e : m.holds = (x ++ t :: y).flatMap (·.todo) ++ (m.curHeld ++ (runHeld m.running ++ m.abandoned)) := by simp [Machine.holds, hf]
      rw [e]
      change ((x ++ _ :: y).flatMap (·.todo) ++ (m.curHeld ++ (runHeld m.running ++ m.abandoned))).Perm _
      simp only [List.flatMap_append, List.flatMap_cons]
      exact List.Perm.refl _
    · change (runZs m.running ++ (x ++ _ :: y).flatMap (·.phase.zs)).Perm _
      have e : m.zs = runZs m.running ++ (x ++ t :: y).flatMap (·.phase.zs) := by simp [Machine.zs, hf]
      rw [e]
      simp only [List.flatMap_append, List.flatMap_cons, hphase, Phase.zs]
      exact List.Perm.refl _
    · change (runIns m.running ++ (x ++ _ :: y).flatMap (·.phase.ins)).Perm _
      refine (List.Perm.append_left _ (flatMap_mid (·.phase.ins) x y _)).trans ?_
      simp [Phase.ins]
  · change (m.log (.freeEnd i)).regs = m.regs
    rw [regs_log]; simp

/-- `freeOnce` is fresh when it is about to run. -/
theorem InvL.once_zero {cfg : Config} {m : Machine} (h : InvL L cfg m) {i : Nat} (hi : i ∈ m.zs) : m.once i = false :=
  (h.core.zero i hi).2.2

theorem mem_zs_run {m : Machine} {r : Running} {i : Nat} (hrun : m.running = some r) (hp : r.phase = .zero i) : i ∈ m.zs := by
  simp [Machine.zs, hrun, runZs, hp, Phase.zs]

theorem mem_zs_free {m : Machine} {t : FreeTask} {i : Nat} (ht : t ∈ m.frees) (hp : t.phase = .zero i) : i ∈ m.zs := by
  unfold Machine.zs
  refine List.mem_append_right _ (List.mem_flatMap.mpr ⟨t, ht, ?_⟩)
  simp [hp, Phase.zs]

theorem InvL.step {cfg : Config} (hcfg : cfg.OK) {m m' : Machine} {l : Label} (h : InvL L cfg m) (hs : Step cfg m l m') : InvL L cfg m' := by
  cases hs with
  | refused k env hr =>
    exact h.silent (by rw [regs_log]; simp) (by rw [begins_log]; simp) (by rw [ends_log]; simp) rfl rfl rfl rfl rfl rfl rfl rfl rfl
  | call k env hr run => exact h.call hcfg hr run
  | act r a rest run phase todo plain => exact h.act run todo plain
  | release r i rest run phase todo => exact h.release run phase todo
  | runSkip r i run phase once => rw [h.once_zero (mem_zs_run run phase)] at once; cases once
  | runBegin r i run phase once => exact h.runBegin run phase
  | runEnd r i run phase => exact h.runEnd run phase
  | ret r run todo phase => exact h.ret run todo phase
  | freeDec t x y frees phase i rest todo due => exact h.freeDec frees phase todo
  | freeSkip t x y frees i phase once => rw [h.once_zero (mem_zs_free (t := t) (by rw [frees]; simp) phase)] at once; cases once
  | freeBegin t x y frees i phase once => exact h.freeBegin frees phase
  | freeEnd t x y frees i phase => exact h.freeEnd frees phase
  | tick d => exact h.silent rfl rfl rfl rfl rfl rfl rfl rfl rfl rfl rfl rfl
  | read => exact h.silent (by rw [regs_log]; simp) (by rw [begins_log]; simp) (by rw [ends_log]; simp) rfl rfl rfl rfl rfl rfl rfl rfl rfl
  | readCounter => exact h.silent (by rw [regs_log]; simp) (by rw [begins_log]; simp) (by rw [ends_log]; simp) rfl rfl rfl rfl rfl rfl rfl rfl rfl

/-- The invariant holds in every reachable state. -/
theorem inv {cfg : Config} (hcfg : cfg.OK) {m : Machine} (h : Reachable cfg m) : Inv cfg m :=
  Reachable.ind (InvL.init cfg) (fun _ _ _ _ h hs => h.step hcfg hs) h

end Hotswap
