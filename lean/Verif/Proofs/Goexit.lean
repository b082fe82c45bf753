import Verif.Proofs.InvAll
import Verif.Spec.Goexit

/-! The invariant when plugin code may call `runtime.Goexit`. -/

namespace Hotswap

variable [GoRuntime] {L : List Nat}

/-! ### The steps -/

/-- The steps that end a goroutine, one case each. -/
inductive XStep (cfg : Config) (m : Machine) : XLabel → Machine → Prop
  | go (l : Label) (m' : Machine) (h : Step cfg m l m') : XStep cfg m (.go l) m'
  | hook (r : Running) (a : Act) (rest : List Act) (run : m.running = some r) (phase : r.phase = .idle) (todo : r.todo = a :: rest)
      (may : a.mayExit = true) : XStep cfg m .exitCall ((m.log (.act a)).drop r)
  | cleanup (r : Running) (i : Nat) (run : m.running = some r) (phase : r.phase = .inside i) :
      XStep cfg m .exitCall ((m.onFreeDone i).drop r)
  | free (t : FreeTask) (x y : List FreeTask) (frees : m.frees = x ++ t :: y) (i : Nat) (phase : t.phase = .inside i) :
      XStep cfg m (.exitFree x.length) { m.onFreeDone i with
        frees := x ++ { t with todo := [], phase := .idle } :: y
        abandoned := t.todo ++ m.abandoned }

theorem xstep_view {cfg : Config} {m m' : Machine} {l : XLabel} (h : m.xstep cfg l = some m') : XStep cfg m l m' := by
  cases l with
  | go l => exact .go l m' (step_view h)
  | exitCall =>
    change m.exitCall = some m' at h
    unfold Machine.exitCall at h
    cases hr : m.running with
    | none => rw [hr] at h; cases h
    | some r =>
      rw [hr] at h
      simp only at h
      cases hp : r.phase with
      | zero i => rw [hp] at h; cases h
      | inside i => rw [hp] at h; cases h; exact .cleanup r i hr hp
      | idle =>
        rw [hp] at h
        simp only at h
        cases ht : r.todo with
        | nil => rw [ht] at h; cases h
        | cons a rest =>
          rw [ht] at h
          simp only at h
          split at h
          · rename_i hm; cases h; exact .hook r a rest hr hp ht hm
          · cases h
  | exitFree n =>
    change m.exitFree n = some m' at h
    unfold Machine.exitFree at h
    cases hf : m.frees[n]? with
    | none => rw [hf] at h; cases h
    | some t =>
      rw [hf] at h
      simp only at h
      obtain ⟨x, y, he, rfl, hs⟩ := split_at hf
      cases hp : t.phase with
      | inside i => rw [hp] at h; simp only at h; cases h; rw [hs]; exact .free t x y he i hp
      | _ => rw [hp] at h; cases h

/-! ### The invariant -/

theorem InvL.pending_exit {cfg : Config} {m : Machine} (h : InvL L cfg m) {r : Running} (hrun : m.running = some r)
    (hx : r.phase ≠ .idle ∨ ∃ a rest, r.todo = a :: rest ∧ a.mayExit = true) : m.pending = none := by
  cases h.run r hrun with
  | fail pre rel todo held idle res pending stage incs order => exact pending
  | ok pre new todo held idle d res pending stage incs good built => exact pending
  | spawned new dyn todo held idle d res pending good built =>
    rcases hx with hx | ⟨a, rest, ht, hm⟩
    · exact absurd idle hx
    · rw [todo] at ht
      cases ht
      cases hm
  | last todo held idle d res pending => exact pending

/-- The running call ends without returning, where the core without its references is given. -/
theorem InvL.dropped {cfg : Config} {m m' : Machine} (h : InvL L cfg m) {r : Running}
    (hpend : m.pending = none)
    (hrun' : m'.running = none) (ha : m'.abandoned = r.held ++ m.abandoned) (hcore : m'.CoreOK) (hr : m'.regs = m.regs)
    (hn : m'.next = m.next) (hc : m'.current = m.current) (hf : m'.frees = m.frees) (hp : m'.pending = m.pending)
    (hbu : m'.builts = m.builts) : InvL (r.held ++ L) cfg m' := by
  refine ⟨hcore, ?_, ?_, ?_, ?_, ?_, ?_, ?_, ?_⟩
  · rw [hc, hn, hbu]; exact h.cur
  · intro _; rw [hp]; exact hpend
  · rw [hf, hn, hbu]; exact h.frees
  · intro r' hr'; rw [hrun'] at hr'; cases hr'
  · rw [hr, hrun']
    have := h.regsNodup
    simp only [runTodo, registers, List.filterMap_nil, List.append_nil]
    exact (List.nodup_append.mp this).1
  · rw [hr, hrun', hn]
    intro i hi
    simp only [runTodo, registers, List.filterMap_nil, List.append_nil] at hi
    exact h.regsLt i (List.mem_append_left _ hi)
  · intro hd; rw [ha, h.dyn hd]
  · rw [hbu, hn]; exact h.sound

theorem InvL.exitHook {cfg : Config} {m : Machine} (h : InvL L cfg m) {r : Running} {a : Act} {rest : List Act} (hrun : m.running = some r)
    (hphase : r.phase = .idle) (htodo : r.todo = a :: rest) (hm : a.mayExit = true) : InvL (r.held ++ L) cfg ((m.log (.act a)).drop r) := by
  have hregs : (m.log (.act a)).regs = m.regs := by rw [regs_log]; cases a <;> first | (cases hm; done) | simp
  have hbeg : (m.log (.act a)).begins = m.begins := by rw [begins_log]; simp
  have hend : (m.log (.act a)).ends = m.ends := by rw [ends_log]; simp
  refine h.dropped (h.pending_exit hrun (.inr ⟨a, rest, htodo, hm⟩)) rfl rfl ?_ hregs rfl rfl rfl rfl rfl
  have hc := h.core
  unfold Machine.CoreOK at *
  change Core m.refs m.once _ _ _ (m.log (.act a)).regs (m.log (.act a)).begins (m.log (.act a)).ends
  rw [hregs, hbeg, hend]
  have hh : m.holds = m.frees.flatMap (·.todo) ++ (m.curHeld ++ (r.held ++ m.abandoned)) := by simp [Machine.holds, hrun, runHeld]
  have hz : m.zs = [] ++ m.frees.flatMap (·.phase.zs) := by simp [Machine.zs, hrun, runZs, hphase, Phase.zs]
  have hi : m.ins = [] ++ m.frees.flatMap (·.phase.ins) := by simp [Machine.ins, hrun, runIns, hphase, Phase.ins]
  rw [hh, hz, hi] at hc
  exact hc

theorem InvL.exitCleanup {cfg : Config} {m : Machine} (h : InvL L cfg m) {r : Running} {i : Nat} (hrun : m.running = some r)
    (hphase : r.phase = .inside i) : InvL (r.held ++ L) cfg ((m.onFreeDone i).drop r) := by
  have hregs : (m.log (.freeEnd i)).regs = m.regs := by rw [regs_log]; simp
  refine h.dropped (h.pending_exit hrun (.inl (by rw [hphase]; simp))) rfl rfl ?_ hregs rfl rfl rfl rfl rfl
  have hc := h.core
  unfold Machine.CoreOK at *
  change Core m.refs m.once _ _ _ (m.log (.freeEnd i)).regs (m.log (.freeEnd i)).begins (m.log (.freeEnd i)).ends
  rw [regs_log, begins_log, ends_log]
  simp only [List.append_nil]
  have hh : m.holds = m.frees.flatMap (·.todo) ++ (m.curHeld ++ (r.held ++ m.abandoned)) := by simp [Machine.holds, hrun, runHeld]
  have hz : m.zs = [] ++ m.frees.flatMap (·.phase.zs) := by simp [Machine.zs, hrun, runZs, hphase, Phase.zs]
  have hi : m.ins = i :: m.frees.flatMap (·.phase.ins) := by simp [Machine.ins, hrun, runIns, hphase, Phase.ins]
  rw [hh, hz, hi] at hc
  exact hc.stop

theorem InvL.exitFree {cfg : Config} {m : Machine} (h : InvL L cfg m) {t : FreeTask} {x y : List FreeTask} {i : Nat}
    (hf : m.frees = x ++ t :: y) (hphase : t.phase = .inside i) :
    InvL (t.todo ++ L) cfg { m.onFreeDone i with
        frees := x ++ { t with todo := [], phase := .idle } :: y
        abandoned := t.todo ++ m.abandoned } := by
  have h1 := h.freeEnd hf hphase
  have hregs : (m.log (.freeEnd i)).regs = m.regs := by rw [regs_log]; simp
  refine ⟨?_, h1.cur, h1.idle, ?_, ?_, h1.regsNodup, h1.regsLt, ?_, h1.sound⟩
  · have hc := h1.core
    unfold Machine.CoreOK at *
    refine hc.congr ?_ ?_ ?_
    · change ((x ++ _ :: y).flatMap (·.todo) ++ (m.curHeld ++ (runHeld m.running ++ (t.todo ++ m.abandoned)))).Perm
        ((x ++ _ :: y).flatMap (·.todo) ++ (m.curHeld ++ (runHeld m.running ++ m.abandoned)))
      rw [List.perm_iff_count]
      intro j
      simp only [List.flatMap_append, List.flatMap_cons, List.count_append, List.count_nil]
      omega
    · change (runZs m.running ++ (x ++ _ :: y).flatMap (·.phase.zs)).Perm (runZs m.running ++ (x ++ _ :: y).flatMap (·.phase.zs))
      simp only [List.flatMap_append, List.flatMap_cons]
      exact List.Perm.refl _
    · change (runIns m.running ++ (x ++ _ :: y).flatMap (·.phase.ins)).Perm (runIns m.running ++ (x ++ _ :: y).flatMap (·.phase.ins))
      simp only [List.flatMap_append, List.flatMap_cons]
      exact List.Perm.refl _
  · intro u hu
    change u ∈ x ++ _ :: y at hu
    rcases List.mem_append.mp hu with hu | hu
    · exact h.frees u (by rw [hf]; exact List.mem_append_left _ hu)
    · rcases List.mem_cons.mp hu with rfl | hu
      · obtain ⟨pm, h1, h2, h3⟩ := h.frees t (by rw [hf]; simp)
        exact ⟨pm, h1, h2, List.nil_suffix⟩
      · exact h.frees u (by rw [hf]; simp [hu])
  · intro r hr
    exact (h1.run r hr).congr rfl rfl rfl rfl
  · intro hd
    change t.todo ++ m.abandoned = t.todo ++ L
    rw [h.dyn hd]

/-! ### What the running call has done -/

omit [GoRuntime] in
theorem lastCallActs_log (tr : History) (t : Nat) (e : Ev) : lastCallActs (tr ++ [(t, e)]) =
    match e with | .called _ => [] | .act a => lastCallActs tr ++ [a] | _ => lastCallActs tr := by
  unfold lastCallActs
  rw [List.foldl_append]
  cases e <;> rfl

omit [GoRuntime] in
theorem owed_snoc (l : List Act) (a : Act) : owed (l ++ [a]) = heldAfter (owed l) a := by
  unfold owed
  rw [List.foldl_append]
  cases a <;> rfl

/-- What the call that holds the lock has done, what it has still to do, and what it holds. -/
structure CallAt (cfg : Config) (m : Machine) (r : Running) : Prop where
  held : r.held = owed (lastCallActs m.trace)
  plan : ∃ old n0 p, Shape cfg r.kind old n0 p ∧ lastCallActs m.trace ++ r.todo = p.acts ∧ r.res = p.res

structure XInv (cfg : Config) (m : Machine) (L : List Nat) : Prop where
  inv : InvL L cfg m
  lost : ∀ i, L.count i ≤ m.abandoned.count i
  call : ∀ r, m.running = some r → CallAt cfg m r

theorem abandoned_mono {cfg : Config} {m m' : Machine} {l : Label} (hs : Step cfg m l m') (i : Nat) : m.abandoned.count i ≤ m'.abandoned.count i := by
  cases hs with
  | act r a rest run phase todo plain =>
    change _ ≤ ((m.log (.act a)).perform cfg a).abandoned.count i
    cases a with
    | publish pm =>
      change _ ≤ (if m.pending.isSome then m.abandoned else m.currentInsts ++ m.abandoned).count i
      split
      · exact Nat.le_refl _
      · rw [List.count_append]; omega
    | _ => exact Nat.le_refl _
  | _ => exact Nat.le_refl _

theorem CallAt.silent {cfg : Config} {m m' : Machine} {r r' : Running} (h : CallAt cfg m r) (ht : lastCallActs m'.trace = lastCallActs m.trace)
    (hh : r'.held = r.held) (hk : r'.kind = r.kind) (htd : r'.todo = r.todo) (hres : r'.res = r.res) : CallAt cfg m' r' :=
  ⟨by rw [hh, ht, h.held], by rw [ht, htd, hk, hres]; exact h.plan⟩

theorem perform_trace' {cfg : Config} {m : Machine} {a : Act} : (m.perform cfg a).trace = m.trace := by
  cases a <;> rfl

/-- The start of a call with the plan `p`. -/
theorem CallAt.start {cfg : Config} {m : Machine} {k : Kind} (p : Plan) (hs : Shape cfg k m.current m.next p) :
    CallAt cfg { m.log (.called k) with
          next := p.next
          builts := p.built :: m.builts
          running := some { kind := k, todo := p.acts, res := p.res, phase := .idle, held := [] } } { kind := k, todo := p.acts, res := p.res, phase := .idle, held := [] } := by
  have ht : lastCallActs (m.trace ++ [(m.now, Ev.called k)]) = [] := lastCallActs_log _ _ _
  refine ⟨?_, m.current, m.next, p, hs, ?_, rfl⟩
  · change [] = owed (lastCallActs (m.trace ++ [(m.now, Ev.called k)]))
    rw [ht]; rfl
  · change lastCallActs (m.trace ++ [(m.now, Ev.called k)]) ++ _ = _
    rw [ht]; rfl

theorem callAt_step {cfg : Config} (hcfg : cfg.OK) {m m' : Machine} {l : Label} (hinv : InvL L cfg m)
    (h : ∀ r, m.running = some r → CallAt cfg m r) (hs : Step cfg m l m') : ∀ r, m'.running = some r → CallAt cfg m' r := by
  intro r' hr'
  cases hs with
  | refused k env hr => exact (h r' hr').silent (lastCallActs_log _ _ _) rfl rfl rfl rfl
  | call k env hr run =>
    cases hr'
    exact .start (plan cfg env k m.current m.next) ((plan_view (env := env) (k := k) (old := m.current) (n0 := m.next) hcfg (fun om ho => (hinv.cur om ho).1)).shape hr)
  | act r a rest run phase todo plain =>
    cases hr'
    have h0 := h r run
    have ht : lastCallActs ((m.log (.act a)).perform cfg a).trace = lastCallActs m.trace ++ [a] := by
      rw [perform_trace']; exact lastCallActs_log _ _ _
    obtain ⟨old, n0, p, hshape, hp, hres⟩ := h0.plan
    refine ⟨?_, old, n0, p, hshape, ?_, hres⟩
    · change heldAfter r.held a = owed (lastCallActs ((m.log (.act a)).perform cfg a).trace)
      rw [ht, owed_snoc, h0.held]
    · change lastCallActs ((m.log (.act a)).perform cfg a).trace ++ rest = _
      rw [ht, ← hp, todo, List.append_assoc]; rfl
  | release r i rest run phase todo =>
    cases hr'
    have h0 := h r run
    have ht : lastCallActs (m.trace ++ [(m.now, Ev.act (.release i))]) = lastCallActs m.trace ++ [.release i] := lastCallActs_log _ _ _
    obtain ⟨old, n0, p, hshape, hp, hres⟩ := h0.plan
    refine ⟨?_, old, n0, p, hshape, ?_, hres⟩
    · change r.held.erase i = owed (lastCallActs (m.trace ++ [(m.now, Ev.act (.release i))]))
      rw [ht, owed_snoc, h0.held]; rfl
    · change lastCallActs (m.trace ++ [(m.now, Ev.act (.release i))]) ++ rest = _
      rw [ht, ← hp, todo, List.append_assoc]; rfl
  | runSkip r i run phase once => cases hr'; exact (h r run).silent rfl rfl rfl rfl rfl
  | runBegin r i run phase once => cases hr'; exact (h r run).silent (lastCallActs_log _ _ _) rfl rfl rfl rfl
  | runEnd r i run phase => cases hr'; exact (h r run).silent (lastCallActs_log _ _ _) rfl rfl rfl rfl
  | ret r run todo phase => cases hr'
  | freeDec t x y frees phase i rest todo due => exact (h r' hr').silent rfl rfl rfl rfl rfl
  | freeSkip t x y frees i phase once => exact (h r' hr').silent rfl rfl rfl rfl rfl
  | freeBegin t x y frees i phase once => exact (h r' hr').silent (lastCallActs_log _ _ _) rfl rfl rfl rfl
  | freeEnd t x y frees i phase => exact (h r' hr').silent (lastCallActs_log _ _ _) rfl rfl rfl rfl
  | tick d => exact (h r' hr').silent rfl rfl rfl rfl rfl
  | read => exact (h r' hr').silent (lastCallActs_log _ _ _) rfl rfl rfl rfl
  | readCounter => exact (h r' hr').silent (lastCallActs_log _ _ _) rfl rfl rfl rfl

theorem XInv.step {cfg : Config} (hcfg : cfg.OK) {m m' : Machine} {l : XLabel} (h : XInv cfg m L) (hs : XStep cfg m l m') :
    XInv cfg m' (m.loses l ++ L) := by
  cases hs with
  | go l m' hs =>
    exact ⟨h.inv.step hcfg hs, fun i => Nat.le_trans (h.lost i) (abandoned_mono hs i), callAt_step hcfg h.inv h.call hs⟩
  | hook r a rest run phase todo may =>
    have hl : m.loses .exitCall = r.held := (h.call r run).held.symm
    rw [hl]
    refine ⟨h.inv.exitHook run phase todo may, ?_, ?_⟩
    · intro i
      change _ ≤ (r.held ++ m.abandoned).count i
      rw [List.count_append, List.count_append]
      exact Nat.add_le_add_left (h.lost i) _
    · intro r' hr'; cases hr'
  | cleanup r i run phase =>
    have hl : m.loses .exitCall = r.held := (h.call r run).held.symm
    rw [hl]
    refine ⟨h.inv.exitCleanup run phase, ?_, ?_⟩
    · intro j
      change _ ≤ (r.held ++ m.abandoned).count j
      rw [List.count_append, List.count_append]
      exact Nat.add_le_add_left (h.lost j) _
    · intro r' hr'; cases hr'
  | free t x y frees i phase =>
    have hl : m.loses (.exitFree x.length) = t.todo := by simp [Machine.loses, frees]
    rw [hl]
    refine ⟨h.inv.exitFree frees phase, ?_, ?_⟩
    · intro j
      change _ ≤ (t.todo ++ m.abandoned).count j
      rw [List.count_append, List.count_append]
      exact Nat.add_le_add_left (h.lost j) _
    · intro r' hr'
      exact (h.call r' hr').silent (lastCallActs_log _ _ _) rfl rfl rfl rfl

omit [GoRuntime] in
theorem mayExit_stage {a : Act} (h : a.mayExit = true) : a.stage ≤ 6 := by
  cases a <;> first | (cases h; done) | simp [Act.stage]

/-- When code that may end the goroutine is started, the call has not begun to release, publish or count anything. -/
theorem CallAt.before {cfg : Config} {m : Machine} {r : Running} (h : CallAt cfg m r) {a : Act} {rest : List Act} (ht : r.todo = a :: rest)
    (ha : a.stage ≤ 6) : ∀ b ∈ lastCallActs m.trace, b.stage ≤ 6 := by
  obtain ⟨old, n0, p, hshape, hp, -⟩ := h.plan
  rw [ht] at hp
  have key : ∀ pre tail : List Act, p.acts = pre ++ tail → (∀ b ∈ pre, b.stage ≤ 6) → (∀ b ∈ tail, b.stage = 7) → ∀ b ∈ lastCallActs m.trace, b.stage ≤ 6 := by
    intro pre tail he hpre htail b hb
    rw [he] at hp
    rcases List.append_eq_append_iff.mp hp with ⟨x, hx, -⟩ | ⟨x, hx, hy⟩
    · exact hpre b (by rw [hx]; exact List.mem_append_left _ hb)
    · cases x with
      | nil => rw [List.append_nil] at hx; exact hpre b (hx ▸ hb)
      | cons c x' =>
        have := htail a (by rw [hy]; simp)
        omega
  cases hshape with
  | failed pre rel acts res log stage acq nodup built origin => exact key _ _ acts stage (stage_release rel)
  | ok pre acts d res log stage acq good origin => exact key _ _ acts stage stage_tail
  | noop acts d res built => exact key [] _ acts (by simp) stage_count

omit [GoRuntime] in
theorem owed_acquired (l : List Act) (h : ∀ b ∈ l, b.stage ≤ 6) : owed l = (acquired l).reverse := by
  have go : ∀ (l : List Act) (z : List Nat), (∀ b ∈ l, b.stage ≤ 6) → l.foldl heldAfter z = (acquired l).reverse ++ z := by
    intro l
    induction l with
    | nil => intro z _; rfl
    | cons a l ih =>
      intro z h
      rw [List.foldl_cons, ih _ (fun b hb => h b (List.mem_cons_of_mem _ hb))]
      have ha := h a (by simp)
      cases a <;> first | (simp [Act.stage] at ha; done) | simp [acquired, acquires, heldAfter, List.filterMap_cons]
  have e : owed l = l.foldl heldAfter [] := by
    unfold owed
    congr 1
  rw [e, go l [] h, List.append_nil]

/-- A call that ends without returning has published and counted nothing. -/
theorem XInv.unpublished {cfg : Config} {m : Machine} (h : XInv cfg m L) {m' : Machine} (hs : XStep cfg m .exitCall m') :
    ∀ b ∈ lastCallActs m.trace, (∀ pm, b ≠ .publish pm) ∧ (∀ pm, b ≠ .spawnFree pm) ∧ b ≠ .count := by
  cases hs with
  | hook r a rest run phase todo may =>
    intro b hb
    have := (h.call r run).before todo (mayExit_stage may) b hb
    cases b <;> first | (simp [Act.stage] at this; done) | simp
  | cleanup r i run phase =>
    obtain ⟨rel, ht, -, hres, -, -⟩ := h.inv.releasing run (.inr (by rw [phase]; simp))
    obtain ⟨old, n0, p, hshape, hp, hr⟩ := (h.call r run).plan
    cases hshape with
    | failed pre rel acts res log stage acq nodup built origin =>
      intro b hb
      have hm : b ∈ pre ++ rel.map Act.release := by rw [← acts, ← hp]; exact List.mem_append_left _ hb
      rcases List.mem_append.mp hm with hm | hm
      · have := stage b hm
        cases b <;> first | (simp [Act.stage] at this; done) | simp
      · obtain ⟨j, _, rfl⟩ := List.mem_map.mp hm
        simp
    | ok pre acts d res log stage acq good origin => exact absurd (hr.trans res) (hres d)
    | noop acts d res built => exact absurd (hr.trans res) (hres d)

/-- The invariant holds in every reachable state. -/
theorem xinv {cfg : Config} (hcfg : cfg.OK) {m : Machine} (h : XReachable cfg m L) : XInv cfg m L := by
  induction h with
  | init => exact ⟨InvL.init cfg, fun i => by simp, by intro r hr; cases hr⟩
  | step l _ hs ih => exact ih.step hcfg (xstep_view hs)

end Hotswap
