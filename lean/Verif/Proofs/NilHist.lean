import Verif.Proofs.Goexit
import Verif.Proofs.HookInv
import Verif.Proofs.Delay
import Verif.Proofs.PanicNil
import Verif.Spec.NilHist

/-! The invariant of histories in which plugins panic with nil. -/

namespace Hotswap

variable [GoRuntime] {L : List Nat}

/-! ### The shape of a call with a `panic(nil)` -/

/-- The plan with releases at the end. -/
def Plan.plus (p : Plan) (rel : List Nat) : Plan := { p with acts := p.acts ++ rel.map Act.release }

omit [GoRuntime] in
theorem Plan.plus_nil (p : Plan) : p.plus [] = p := by
  cases p; simp [Plan.plus]

/-- A load that stopped at a `panic(nil)` of a live function had ordered its plugins. -/
theorem FinishFailed.sound {old : Option Manager} {n0 : Nat} {s1 sb : LoadSt} {it : Iter} {data : Nat} (h : FinishFailed s1 it data (.inr .user) sb) (hb : BodyLog old n0 sb) :
    SoundManager sb.next sb.pm := by
  obtain ⟨p, hp, _⟩ := h.last
  rcases hb.order with ho | hs
  · rw [ho] at hp; cases hp
  · exact hs

/-- What a load was doing when a plugin panicked. -/
theorem plugin_panic_late' {f : Fail} (hp : FromPlugin f) {pm : Manager} (hf : FailOK pm f) : f = .inr .user := by
  cases f with
  | inl e =>
    cases e with
    | panicked n p => exact hf.elim
    | _ => cases hp
  | inr p =>
    cases p <;> simp [FromPlugin] at hp
    rfl

theorem AfterNil.shape {cfg : Config} {cbs : List (Nat × Outcome)} {it : Iter} {k : Kind} {old old' : Option Manager} {n0 : Nat} {det : Option Details} {sb : LoadSt} {q : Plan}
    (h : AfterNil cbs it k old det sb q) (body : BodyLog old n0 sb) (hb : q.built = sb.pm) (hn : q.next = sb.next)
    (hlog : ∀ l, Log old n0 q.next l → Log old' n0 q.next l) (horig : Origin old n0 q.built → Origin old' n0 q.built)
    (hspawn : spawnActs old = if cfg.static.isSome then [] else spawnActs old') (hsound : ∀ d, det = some d → SoundManager sb.next sb.pm) :
    ∃ rel, Shape cfg k old' n0 (q.plus rel) ∧ (rel ≠ [] → q.res = .panic .nilDeref ∧ ∀ a ∈ q.acts, a.stage ≤ 6) := by
  have hlg : ∀ cs, Log old' n0 q.next (sb.acts ++ cbActs sb.pm.mid (old.map (·.mid)) cs) := fun cs => hlog _ (by rw [hn]; exact body.log.append_plain body.stage (fun a ha => mem_cbActs ha))
  have hor : Origin old' n0 q.built := horig (by rw [hb]; exact body.origin)
  obtain ⟨rel, h1, h2, h3, h4⟩ := body.cleanup it
  have h4' : q.built.ordered = [] ∨ (SoundManager q.next q.built ∧ rel = q.built.releaseList) := by rw [hb, hn]; exact h4
  cases h with
  | callback done n o rest split bad good acts res =>
    refine ⟨[], ?_, by simp⟩
    rw [Plan.plus_nil]
    exact .failed _ rel (by rw [acts, h1]) (by simp [res]) (hlg _) (stage_cb body.stage) (by rw [acquired_cb]; exact h2) h3 h4' hor
  | nilDeref good no acts res =>
    refine ⟨rel, ?_, fun _ => ⟨res, by rw [acts]; exact stage_cb (cbs := cbs) body.stage⟩⟩
    exact .failed (sb.acts ++ cbActs sb.pm.mid (old.map (·.mid)) cbs) rel (by change q.acts ++ _ = _; rw [acts]) (by change ∀ d, q.res ≠ _; simp [res]) (hlg cbs) (stage_cb (cbs := cbs) body.stage) (by rw [acquired_cb]; exact h2) h3 h4' hor
  | published d good yes acts res =>
    refine ⟨[], ?_, by simp⟩
    rw [Plan.plus_nil]
    refine .ok (sb.acts ++ cbActs sb.pm.mid (old.map (·.mid)) cbs) ?_ d res (hlg cbs) (stage_cb (cbs := cbs) body.stage) ?_ ?_ hor
    · rw [acts, hspawn, hb]
    · rw [acquired_cb, hb]; exact body.acq
    · rw [hb, hn]; exact hsound d yes

theorem planNil_shape {cfg : Config} {env : Env} {k : Kind} {old : Option Manager} {n0 : Nat} (hcfg : cfg.OK) (hgood : ∀ om, old = some om → SoundManager n0 om) (hk : refused cfg k = false) :
    n0 ≤ (planNil cfg env k old n0).next ∧ ∃ rel, Shape cfg k old n0 ((planNil cfg env k old n0).plus rel) ∧ (rel ≠ [] → (planNil cfg env k old n0).res = .panic .nilDeref ∧ ∀ a ∈ (planNil cfg env k old n0).acts, a.stage ≤ 6) := by
  cases plan_nilView (env := env) (k := k) hcfg hgood with
  | same eq no =>
    have hv := plan_view (env := env) (k := k) (old := old) (n0 := n0) hcfg hgood
    rw [eq]
    exact ⟨hv.next_le, [], by rw [Plan.plus_nil]; exact hv.shape hk, by simp⟩
  | dyn absDir entries isDyn dir s0 sb f n cr failed body plug what res built next after =>
    refine ⟨by rw [next]; exact Nat.le_of_lt body.lo, after.shape body built next (fun _ h => h) (fun h => h) ?_ ?_⟩
    · have : cfg.static.isSome = false := by
        rcases isDyn with h | h
        · rw [h]; rfl
        · cases k with
          | load => exact absurd rfl h
          | reload e => exact hk
      rw [this]; rfl
    · intro d hd
      cases failed with
      | early base why =>
        cases f with
        | inr p => exact why.elim
        | inl e =>
          simp only [errOf] at what
          subst what
          obtain ⟨_, ⟨_, hc, _⟩ | ⟨_, g, hg, _, hc, _, hno, _⟩⟩ := why
          · cases hc
          · rw [buildDetails_none hg hno] at hd; cases hd
      | late s1 done why =>
        have hf := plugin_panic_late' plug why.fail
        subst hf
        exact why.sound body
  | static sps sel st kl hsel s0 sb f n d cr failed body plug what res built next after =>
    refine ⟨by rw [next]; exact Nat.le_of_lt body.lo, after.shape body built next (fun _ h => h.weaken) (fun h => h.weaken) ?_ ?_⟩
    · rw [st]; rfl
    · intro d' _
      cases failed with
      | early base why =>
        cases f with
        | inr p => exact why.elim
        | inl e =>
          simp only [errOf] at what
          subst what
          exact why.elim
      | late s1 done why =>
        have hf := plugin_panic_late' plug why.fail
        subst hf
        exact why.sound body

/-! ### The steps -/

/-- The steps, one case each. -/
inductive NStep (cfg : Config) (m : Machine) : NLabel → Machine → Prop
  | go (l : Label) (m' : Machine) (h : Step cfg m l m') (nr : l ≠ .ret) : NStep cfg m (.go l) m'
  | refused (k : Kind) (env : Env) (h : Hotswap.refused cfg k = true) : NStep cfg m (.callNil k env) (m.log .refused)
  | call (k : Kind) (env : Env) (h : Hotswap.refused cfg k = false) (run : m.running = none) : NStep cfg m (.callNil k env) (m.start k (planNil cfg env k m.current m.next))
  | ret (r : Running) (run : m.running = some r) (todo : r.todo = []) (phase : r.phase = .idle) :
      NStep cfg m (.go .ret) { m.log (.returned r.kind r.res) with running := none, abandoned := r.held ++ m.abandoned }

theorem nstep_view {cfg : Config} {m m' : Machine} {l : NLabel} (h : m.nstep cfg l = some m') : NStep cfg m l m' := by
  cases l with
  | callNil k env =>
    unfold Machine.nstep at h
    simp only at h
    split at h
    · rename_i hk; cases h; exact .refused k env hk
    · rename_i hk
      cases hr : m.running with
      | some r => rw [hr] at h; cases h
      | none => rw [hr] at h; cases h; exact .call k env (by simpa using hk) hr
  | go l =>
    by_cases hl : l = .ret
    · subst hl
      unfold Machine.nstep at h
      simp only at h
      cases hr : m.running with
      | none => rw [hr] at h; cases h
      | some r =>
        rw [hr] at h
        simp only at h
        cases hs : m.step cfg .ret with
        | none => rw [hs] at h; cases h
        | some m1 =>
          rw [hs] at h
          cases h
          cases step_view hs with
          | ret r' run todo phase =>
            rw [hr] at run
            cases run
            exact .ret r hr todo phase
    · refine .go l m' (step_view (cfg := cfg) ?_) hl
      cases l with
      | ret => exact absurd rfl hl
      | _ => exact h

/-! ### The invariant -/

/-- The machine in which the running call will give back `rel`. -/
def Machine.owing (m : Machine) (rel : List Nat) : Machine :=
  { m with running := m.running.map (fun r => { r with todo := r.todo ++ rel.map Act.release }) }

omit [GoRuntime] in
theorem owing_none {m : Machine} {rel : List Nat} (h : m.running = none) : m.owing rel = m := by
  unfold Machine.owing; rw [h, ← h]
  cases m; simp_all

omit [GoRuntime] in
theorem owing_some {m : Machine} {rel : List Nat} {r : Running} (h : m.running = some r) :
    m.owing rel = { m with running := some { r with todo := r.todo ++ rel.map Act.release } } := by
  unfold Machine.owing; rw [h]; rfl

omit [GoRuntime] in
theorem owing_nil (m : Machine) : m.owing [] = m := by
  obtain ⟨a1, a2, a3, a4, a5, a6, run, a8, a9, a10, a11, a12⟩ := m
  cases run with
  | none => rfl
  | some r => simp [Machine.owing]

/-- Every step but a return is a step of the other machine. -/
theorem Step.owing {cfg : Config} {m m' : Machine} {l : Label} (h : Step cfg m l m') (nr : l ≠ .ret) (hc : ∀ k env, l = .call k env → Hotswap.refused cfg k = true) (rel : List Nat) :
    Step cfg (m.owing rel) l (m'.owing rel) := by
  cases h with
  | refused k env hr => exact .refused k env hr
  | call k env hr run => rw [hc k env rfl] at hr; cases hr
  | act r a rest run phase todo plain =>
    rw [owing_some run]
    have := Step.act (cfg := cfg) (m := { m with running := some { r with todo := r.todo ++ rel.map Act.release } }) _ a (rest ++ rel.map Act.release) rfl phase (by rw [todo]; rfl) plain
    convert this using 1
    cases a <;> rfl
  | release r i rest run phase todo =>
    rw [owing_some run]
    exact Step.release (cfg := cfg) (m := { m with running := some { r with todo := r.todo ++ rel.map Act.release } }) _ i (rest ++ rel.map Act.release) rfl phase (by rw [todo]; rfl)
  | runSkip r i run phase once =>
    rw [owing_some run]
    exact Step.runSkip (cfg := cfg) (m := { m with running := some { r with todo := r.todo ++ rel.map Act.release } }) _ i rfl phase once
  | runBegin r i run phase once =>
    rw [owing_some run]
    exact Step.runBegin (cfg := cfg) (m := { m with running := some { r with todo := r.todo ++ rel.map Act.release } }) _ i rfl phase once
  | runEnd r i run phase =>
    rw [owing_some run]
    exact Step.runEnd (cfg := cfg) (m := { m with running := some { r with todo := r.todo ++ rel.map Act.release } }) _ i rfl phase
  | ret r run todo phase => exact absurd rfl nr
  | freeDec t x y frees phase i rest todo due => exact Step.freeDec (cfg := cfg) (m := m.owing rel) t x y frees phase i rest todo due
  | freeSkip t x y frees i phase once => exact Step.freeSkip (cfg := cfg) (m := m.owing rel) t x y frees i phase once
  | freeBegin t x y frees i phase once => exact Step.freeBegin (cfg := cfg) (m := m.owing rel) t x y frees i phase once
  | freeEnd t x y frees i phase => exact Step.freeEnd (cfg := cfg) (m := m.owing rel) t x y frees i phase
  | tick d => exact Step.tick (cfg := cfg) (m := m.owing rel) d
  | read => exact Step.read (cfg := cfg) (m := m.owing rel)
  | readCounter => exact Step.readCounter (cfg := cfg) (m := m.owing rel)

/-- The invariant, of the machine in which the running call will give everything back. -/
structure NInv (cfg : Config) (m : Machine) (L : List Nat) (rel : List Nat) : Prop where
  inv : InvL L cfg (m.owing rel)
  hook : HookInv (m.owing rel)
  delay : DelayInv cfg (m.owing rel)
  lost : ∀ i, L.count i ≤ m.abandoned.count i
  call : ∀ r, (m.owing rel).running = some r → CallAt cfg (m.owing rel) r
  /-- only a call that panics gives nothing back -/
  panics : rel ≠ [] → ∀ r, m.running = some r → r.res = .panic .nilDeref ∧ ∀ a ∈ lastCallActs m.trace ++ r.todo, a.stage ≤ 6

/-- The start of a call. -/
theorem NInv.start {cfg : Config} {m : Machine} {rel : List Nat} (h : NInv cfg m L rel) {k : Kind} {p : Plan} {rel' : List Nat} (run : m.running = none)
    (hs : Shape cfg k m.current m.next (p.plus rel')) (hle : m.next ≤ p.next) (hp : rel' ≠ [] → p.res = .panic .nilDeref ∧ ∀ a ∈ p.acts, a.stage ≤ 6) : NInv cfg (m.start k p) L rel' := by
  have hi := h.inv
  have hh := h.hook
  have hd := h.delay
  rw [owing_none run] at hi hh hd
  refine ⟨hi.callPlan hs hle run, hh.callPlan hi hs hle, ?_, h.lost, ?_, ?_⟩
  · exact hd.same (es := [(m.now, .called k)]) rfl (by simp) (fun t ht => ⟨t, ht, rfl, fun i hi => .inl hi⟩) (Nat.le_refl _) id rfl rfl (fun _ h => List.mem_cons_of_mem _ h) hle rfl
  · intro r hr
    cases hr
    exact CallAt.start (p.plus rel') hs
  · intro hne r hr
    cases hr
    change p.res = _ ∧ ∀ a ∈ lastCallActs (m.trace ++ [(m.now, Ev.called k)]) ++ p.acts, _
    rw [lastCallActs_log]
    exact hp hne

/-- A call returns. -/
theorem InvL.returned {cfg : Config} {m : Machine} {rel : List Nat} (h : InvL L cfg (m.owing rel)) {r : Running} (hrun : m.running = some r) (htodo : r.todo = []) (hphase : r.phase = .idle) :
    InvL (r.held ++ L) cfg { m.log (.returned r.kind r.res) with running := none, abandoned := r.held ++ m.abandoned } := by
  have hpend : m.pending = none := by
    rw [owing_some hrun] at h
    have hx := h.run _ rfl
    cases hx with
    | fail pre rel todo held idle res pending stage incs order => exact pending
    | ok pre new todo held idle d res pending stage incs good built => exact pending
    | spawned new dyn todo held idle d res pending good built =>
      simp only [htodo, List.nil_append] at todo
      cases rel <;> simp at todo
    | last todo held idle d res pending => exact pending
  have hregs : (m.log (.returned r.kind r.res)).regs = m.regs := by rw [regs_log]; simp
  have hbeg : (m.log (.returned r.kind r.res)).begins = m.begins := by rw [begins_log]; simp
  have hend : (m.log (.returned r.kind r.res)).ends = m.ends := by rw [ends_log]; simp
  refine h.dropped (r := r) hpend rfl rfl ?_ hregs rfl rfl rfl rfl rfl
  have hc := h.core
  unfold Machine.CoreOK at *
  change Core m.refs m.once _ _ _ (m.log (.returned r.kind r.res)).regs (m.log (.returned r.kind r.res)).begins (m.log (.returned r.kind r.res)).ends
  rw [hregs, hbeg, hend]
  have hh : (m.owing rel).holds = m.frees.flatMap (·.todo) ++ (m.curHeld ++ (r.held ++ m.abandoned)) := by rw [owing_some hrun]; rfl
  have hz : (m.owing rel).zs = [] ++ m.frees.flatMap (·.phase.zs) := by rw [owing_some hrun]; simp [Machine.zs, runZs, hphase, Phase.zs]
  have hi : (m.owing rel).ins = [] ++ m.frees.flatMap (·.phase.ins) := by rw [owing_some hrun]; simp [Machine.ins, runIns, hphase, Phase.ins]
  rw [hh, hz, hi] at hc
  exact hc

theorem NInv.step {cfg : Config} (hcfg : cfg.OK) {m m' : Machine} {l : NLabel} {rel : List Nat} (h : NInv cfg m L rel) (hs : NStep cfg m l m') : ∃ rel', NInv cfg m' (m.nilLoses l ++ L) rel' := by
  have key : ∀ {l : Label} {m' : Machine}, Step cfg m l m' → l ≠ .ret → (∀ k env, l = .call k env → refused cfg k = true) → (∀ r', m'.running = some r' → ∃ r, m.running = some r ∧ r'.res = r.res ∧ lastCallActs m'.trace ++ r'.todo = lastCallActs m.trace ++ r.todo) → ∃ rel', NInv cfg m' L rel' := by
    intro l m' hs nr hc hres
    have hs' := hs.owing nr hc rel
    refine ⟨rel, h.inv.step hcfg hs', h.hook.step hcfg h.inv hs', h.delay.step hcfg h.inv hs', fun i => Nat.le_trans (h.lost i) (abandoned_mono hs i), callAt_step hcfg h.inv h.call hs', ?_⟩
    intro hne r' hr'
    obtain ⟨r, hr, he, ht⟩ := hres r' hr'
    rw [he, ht]; exact h.panics hne r hr
  have hcur : m.running = none → ∀ om, m.current = some om → SoundManager m.next om := by
    intro run om ho
    have := h.inv
    rw [owing_none run] at this
    exact (this.cur om ho).1
  cases hs with
  | go l m' st nr =>
    have hl : m.nilLoses (.go l) = [] := by cases l <;> first | rfl | exact absurd rfl nr
    rw [hl, List.nil_append]
    cases st with
    | call k env hr run =>
      have hv := plan_view (env := env) (k := k) (old := m.current) (n0 := m.next) hcfg (hcur run)
      exact ⟨[], h.start (p := plan cfg env k m.current m.next) run (by rw [Plan.plus_nil]; exact hv.shape hr) hv.next_le (by simp)⟩
    | refused k env hr => exact key (.refused k env hr) nr (fun _ _ e => by cases e; exact hr) (fun r' hr' => ⟨r', hr', rfl, by rw [show lastCallActs (m.log .refused).trace = lastCallActs m.trace from lastCallActs_log _ _ _]⟩)
    | act r a rest run phase todo plain => exact key (.act r a rest run phase todo plain) nr (by intro _ _ e; cases e) (fun r' hr' => by
        cases hr'
        refine ⟨r, run, rfl, ?_⟩
        change lastCallActs ((m.log (.act a)).perform cfg a).trace ++ rest = _
        rw [perform_trace', todo, show lastCallActs (m.log (.act a)).trace = lastCallActs m.trace ++ [a] from lastCallActs_log _ _ _, List.append_assoc]; rfl)
    | release r i rest run phase todo => exact key (.release r i rest run phase todo) nr (by intro _ _ e; cases e) (fun r' hr' => by
        cases hr'
        refine ⟨r, run, rfl, ?_⟩
        change lastCallActs (m.trace ++ [(m.now, Ev.act (.release i))]) ++ rest = _
        rw [lastCallActs_log, todo, List.append_assoc]; rfl)
    | runSkip r i run phase once => exact key (.runSkip r i run phase once) nr (by intro _ _ e; cases e) (fun r' hr' => by cases hr'; exact ⟨r, run, rfl, rfl⟩)
    | runBegin r i run phase once => exact key (.runBegin r i run phase once) nr (by intro _ _ e; cases e) (fun r' hr' => by
        cases hr'
        refine ⟨r, run, rfl, ?_⟩
        change lastCallActs (m.trace ++ [(m.now, Ev.freeBegin i)]) ++ r.todo = _
        rw [lastCallActs_log])
    | runEnd r i run phase => exact key (.runEnd r i run phase) nr (by intro _ _ e; cases e) (fun r' hr' => by
        cases hr'
        refine ⟨r, run, rfl, ?_⟩
        change lastCallActs (m.trace ++ [(m.now, Ev.freeEnd i)]) ++ r.todo = _
        rw [lastCallActs_log])
    | ret r run todo phase => exact absurd rfl nr
    | freeDec t x y frees phase i rest todo due => exact key (.freeDec t x y frees phase i rest todo due) nr (by intro _ _ e; cases e) (fun r' hr' => ⟨r', hr', rfl, rfl⟩)
    | freeSkip t x y frees i phase once => exact key (.freeSkip t x y frees i phase once) nr (by intro _ _ e; cases e) (fun r' hr' => ⟨r', hr', rfl, rfl⟩)
    | freeBegin t x y frees i phase once => exact key (.freeBegin t x y frees i phase once) nr (by intro _ _ e; cases e) (fun r' hr' => by
        refine ⟨r', hr', rfl, ?_⟩
        change lastCallActs (m.trace ++ [(m.now, Ev.freeBegin i)]) ++ r'.todo = _
        rw [lastCallActs_log])
    | freeEnd t x y frees i phase => exact key (.freeEnd t x y frees i phase) nr (by intro _ _ e; cases e) (fun r' hr' => by
        refine ⟨r', hr', rfl, ?_⟩
        change lastCallActs (m.trace ++ [(m.now, Ev.freeEnd i)]) ++ r'.todo = _
        rw [lastCallActs_log])
    | tick d => exact key (.tick d) nr (by intro _ _ e; cases e) (fun r' hr' => ⟨r', hr', rfl, rfl⟩)
    | read => exact key .read nr (by intro _ _ e; cases e) (fun r' hr' => by
        refine ⟨r', hr', rfl, ?_⟩
        change lastCallActs (m.trace ++ [(m.now, Ev.observed (m.current.map (·.mid)))]) ++ r'.todo = _
        rw [lastCallActs_log])
    | readCounter => exact key .readCounter nr (by intro _ _ e; cases e) (fun r' hr' => by
        refine ⟨r', hr', rfl, ?_⟩
        change lastCallActs (m.trace ++ [(m.now, Ev.counted m.counter)]) ++ r'.todo = _
        rw [lastCallActs_log])
  | refused k env hr => exact key (l := .call k env) (.refused k env hr) (by simp) (fun _ _ e => by cases e; exact hr) (fun r' hr' => ⟨r', hr', rfl, by rw [show lastCallActs (m.log .refused).trace = lastCallActs m.trace from lastCallActs_log _ _ _]⟩)
  | call k env hr run =>
    obtain ⟨hle, rel', hsh, hp⟩ := planNil_shape (env := env) (k := k) hcfg (hcur run) hr
    exact ⟨rel', h.start run hsh hle hp⟩
  | ret r run todo phase =>
    have hcall := h.call
    rw [owing_some run] at hcall
    have hl : m.nilLoses (.go .ret) = r.held := (hcall _ rfl).held.symm
    rw [hl]
    refine ⟨[], ?_, ?_, ?_, ?_, ?_, ?_⟩
    · rw [owing_none rfl]; exact h.inv.returned run todo phase
    · rw [owing_none rfl]
      have hh := h.hook
      refine hh.same ?_ ?_ rfl (fun t ht => ⟨t, ht, fun _ h => h⟩)
      · change (m.log (.returned r.kind r.res)).hooks = _
        rw [hooks_log]; simp only [evHook, Option.toList, List.append_nil]; rfl
      · rw [owing_some run]
        simp only [todoHooks, runTodo, todo, List.nil_append]
        symm
        rw [List.filterMap_nil, List.filterMap_eq_nil_iff]
        intro a ha
        obtain ⟨j, _, rfl⟩ := List.mem_map.mp ha
        rfl
    · rw [owing_none rfl]
      obtain ⟨d1, d2, d3, d4, d5⟩ := h.delay.same (m' := (m.owing rel).log (.returned r.kind r.res)) (es := [(m.now, .returned r.kind r.res)]) rfl (by simp) (fun t ht => ⟨t, ht, rfl, fun i hi => .inl hi⟩) (Nat.le_refl _) id rfl rfl (fun _ h => h) (Nat.le_refl _) rfl
      refine ⟨d1, d2, d3, d4, ?_⟩
      intro hst
      obtain ⟨e1, e2, e3⟩ := d5 hst
      refine ⟨e1, e2, ?_⟩
      intro T pm hm i hi
      rcases List.mem_append.mp (e3 T pm hm i hi) with e | e
      · exact List.mem_append_left _ e
      · exact List.mem_append_right _ (List.mem_append_right _ e)
    · intro i
      change _ ≤ (r.held ++ m.abandoned).count i
      rw [List.count_append, List.count_append]
      exact Nat.add_le_add_left (h.lost i) _
    · intro r' hr'; cases hr'
    · intro hne; exact absurd rfl hne

theorem ninv {cfg : Config} (hcfg : cfg.OK) {m : Machine} (h : NReachable cfg m L) : ∃ rel, NInv cfg m L rel := by
  induction h with
  | init => exact ⟨[], InvL.init cfg, HookInv.init, DelayInv.init, fun i => (by simp), (by intro r hr; cases hr), (by intro _ r hr; cases hr)⟩
  | step l _ hs ih => obtain ⟨rel, ih⟩ := ih; exact ih.step hcfg (nstep_view hs)

/-- The current manager. -/
theorem NReachable.sound {cfg : Config} (hcfg : cfg.OK) {m : Machine} (h : NReachable cfg m L) : ∀ om, m.current = some om → SoundManager m.next om := by
  obtain ⟨rel, hi⟩ := ninv hcfg h
  exact fun om ho => (hi.inv.cur om ho).1

/-- A call that gives nothing back when it returns has nothing. -/
theorem InvL.ret_held {cfg : Config} {m : Machine} (h : InvL L cfg m) {r : Running} (hrun : m.running = some r) (htodo : r.todo = []) : r.held = [] := by
  cases h.run r hrun with
  | fail pre rel todo held idle res pending stage incs order =>
    rw [htodo] at todo
    obtain ⟨h1, h2⟩ := List.append_eq_nil_iff.mp todo.symm
    subst h1
    rw [List.map_eq_nil_iff] at h2
    subst h2
    have := held.eq_nil
    simpa [acquired] using this
  | ok pre new todo held idle d res pending stage incs good built => rw [htodo] at todo; simp at todo
  | spawned new dyn todo held idle d res pending good built => rw [htodo] at todo; cases todo
  | last todo held idle d res pending => exact held

/-- The histories in which no plugin panics with nil are such histories. -/
theorem Reachable.nil {cfg : Config} (hcfg : cfg.OK) {m : Machine} (h : Reachable cfg m) : NReachable cfg m [] := by
  induction h with
  | init => exact .init
  | @step m m' l hr hstep ih =>
  have hs := step_view hstep
  by_cases hl : l = .ret
  · subst hl
    cases hs with
    | ret r run todo phase =>
      have hheld := (inv hcfg hr).ret_held run todo
      obtain ⟨rel, hi⟩ := ninv hcfg ih
      have hlose : m.nilLoses (.go .ret) = [] := by
        have hc := hi.call
        rw [owing_some run] at hc
        have := (hc _ rfl).held
        rw [← hheld]; exact this.symm
      have := NReachable.step (m' := { m.log (.returned r.kind r.res) with running := none }) (.go .ret) ih (by
        simp only [Machine.nstep, run, Machine.step, todo, phase, hheld, List.nil_append]
        rfl)
      rw [hlose] at this
      exact this
  · have := NReachable.step (m' := m') (.go l) ih (by
      cases l with
      | ret => exact absurd rfl hl
      | _ => exact hstep)
    have hlose : m.nilLoses (.go l) = [] := by cases l <;> first | rfl | exact absurd rfl hl
    rw [hlose] at this
    exact this

/-! ### What the invariant gives -/

theorem NInv.safe {cfg : Config} {m : Machine} {rel : List Nat} (hx : NInv cfg m L rel) (i : Nat) :
    0 ≤ m.refs i ∧ m.ends.count i ≤ m.begins.count i ∧ m.begins.count i ≤ 1 ∧ (i ∈ m.begins → i ∈ m.regs ∧ i ∉ L ∧ (m.running = none → i ∉ m.currentInsts)) := by
  have hc := hx.inv.core
  have hbe : m.begins.count i = if m.once i then 1 else 0 := hc.begins_eq i
  have hee : m.ends.count i + (m.owing rel).ins.count i = m.begins.count i := hc.ends_eq i
  refine ⟨?_, by omega, ?_, ?_⟩
  · have : m.refs i = ((m.owing rel).holds.count i : Int) := hc.refs_eq i
    rw [this]; exact Int.natCast_nonneg _
  · rw [hbe]; split <;> omega
  · intro hm
    have ho : m.once i = true := by
      cases ho : m.once i with
      | true => rfl
      | false =>
        rw [ho] at hbe
        exact absurd (List.count_pos_iff.mpr hm) (by simp [hbe])
    obtain ⟨h1, h2⟩ := hc.once_ok i ho
    refine ⟨h1, ?_, ?_⟩
    · intro hL
      have := hx.lost i
      have hp := List.count_pos_iff.mpr hL
      have ha : i ∈ (m.owing rel).abandoned := List.count_pos_iff.mp (show 0 < m.abandoned.count i by omega)
      exact h2 (by
        unfold Machine.holds
        simp only [List.mem_append]
        exact .inr (.inr (.inr ha)))
    · intro hr hcur
      rw [owing_none hr] at h2
      have hi := hx.inv
      rw [owing_none hr] at hi
      exact h2 (by
        unfold Machine.holds Machine.curHeld
        rw [hi.idle hr]
        simp only [List.mem_append]
        exact .inr (.inl hcur))

theorem NInv.kept {cfg : Config} {m : Machine} {rel : List Nat} (hx : NInv cfg m L rel) {i : Nat} (hi : i ∈ L) : 0 < m.refs i := by
  have : m.refs i = ((m.owing rel).holds.count i : Int) := hx.inv.core.refs_eq i
  rw [this]
  have h1 := hx.lost i
  have h2 := List.count_pos_iff.mpr hi
  have : 0 < (m.owing rel).holds.count i := by
    have h3 : (m.owing rel).abandoned = m.abandoned := rfl
    unfold Machine.holds
    simp only [List.count_append, h3]
    omega
  exact_mod_cast this

theorem NInv.others_freed {cfg : Config} (hst : cfg.static = none) {m : Machine} {rel : List Nat} (hx : NInv cfg m L rel) (hq : m.Quiet) {i : Nat} (hi : i ∈ m.regs) (hc : i ∉ m.currentInsts)
    (hL : i ∉ L) : m.begins.count i = 1 ∧ m.ends.count i = 1 := by
  have hinv := hx.inv
  obtain ⟨hr, hf⟩ := hq
  rw [owing_none hr] at hinv
  have h1 : m.frees.flatMap (·.todo) = [] := List.flatMap_eq_nil_iff.mpr (fun t ht => (hf t ht).1)
  have hh : m.holds = m.currentInsts ++ L := by
    unfold Machine.holds Machine.curHeld
    rw [h1, hinv.idle hr, hr, hinv.dyn (by rw [hst]; rfl)]
    simp [runHeld]
  have hz : m.zs = [] := by
    unfold Machine.zs
    rw [hr]
    simp [runZs]
    intro t ht; rw [(hf t ht).2]; rfl
  have hin : m.ins = [] := by
    unfold Machine.ins
    rw [hr]
    simp [runIns]
    intro t ht; rw [(hf t ht).2]; rfl
  have hb := hinv.core.begins_eq i
  have he := hinv.core.ends_eq i
  rw [hin] at he
  rcases hinv.core.done i hi (by rw [hh]; simp [hc, hL]) with ho | ho
  · rw [ho] at hb
    simp at hb he
    omega
  · rw [hz] at ho; cases ho

theorem NInv.delayed {cfg : Config} {m : Machine} {rel : List Nat} (hx : NInv cfg m L rel) {i : Nat} (hc : Cause cfg m (.freeBegin i)) {T : Nat} {pm : Manager}
    (hp : (T, Ev.act (.publish pm)) ∈ m.trace) (hi : i ∈ pm.insts) : ∃ T0, (T0, Ev.act (.spawnFree pm)) ∈ m.trace ∧ T0 + max 15000000000 cfg.freeDelay ≤ m.now := by
  cases hc with
  | begin _ hz =>
    have hz' : i ∈ (m.owing rel).zs := by
      cases hrun : m.running with
      | none => rw [owing_none hrun]; exact hz
      | some r =>
        rw [owing_some hrun]
        unfold Machine.zs at hz ⊢
        rw [hrun] at hz
        exact hz
    obtain ⟨_, T0, h1, h2⟩ := DelayInv.delayed hx.inv hx.delay hz' (T := T) (pm := pm) hp hi
    refine ⟨T0, h1, ?_⟩
    have : cfg.delay = max 15000000000 cfg.freeDelay := by
      unfold Config.delay minFreeDelay
      split <;> omega
    rw [← this]; exact h2

end Hotswap
