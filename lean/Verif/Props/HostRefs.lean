import Verif.Spec.HostRefs
import Verif.Proofs.InvAll
import Verif.Proofs.Drain
import Verif.Proofs.Goexit
import Verif.Props.Schedule

/-!
# A host that counts references itself: C85
-/

namespace Hotswap

section
variable [GoRuntime]

/-! ### The invariant -/

/-- The state in which the host had kept the last references of `D`. -/
def Machine.pad (m : Machine) (D : List Nat) : Machine := { m with refs := fun j => m.refs j + (D.count j : Int), abandoned := m.abandoned ++ D }

structure HostInv (cfg : Config) (m : Machine) (H D : List Nat) : Prop where
  inv : ∃ L, InvL L cfg (m.pad D)
  host : ∀ i, H.count i ≤ m.abandoned.count i
  dyn : cfg.static.isSome = false → m.abandoned.Perm H
  dead : ∀ i ∈ D, m.refs i = 0

theorem pad_holds (m : Machine) (D : List Nat) : (m.pad D).holds = m.holds ++ D := by
  change m.frees.flatMap (·.todo) ++ (m.curHeld ++ (runHeld m.running ++ (m.abandoned ++ D))) = _
  simp only [Machine.holds, List.append_assoc]

theorem InvL.refs_holds {L D : List Nat} {cfg : Config} {m : Machine} (h : InvL L cfg (m.pad D)) (i : Nat) : m.refs i = (m.holds.count i : Int) := by
  have := h.core.refs_eq i
  rw [pad_holds, List.count_append] at this
  change m.refs i + _ = _ at this
  push_cast at this
  omega

theorem InvL.dead_unheld {L D : List Nat} {cfg : Config} {m : Machine} (h : InvL L cfg (m.pad D)) {i : Nat} (hi : m.refs i = 0) : i ∉ m.holds := by
  have := h.refs_holds i
  rw [hi] at this
  intro hm
  have := List.count_pos_iff.mpr hm
  omega

omit [GoRuntime] in
theorem pad_upd (m : Machine) (D : List Nat) {i : Nat} {v : Int} (hi : i ∉ D) : (fun j => upd m.refs i v j + (D.count j : Int)) = upd (m.pad D).refs i v := by
  funext j
  unfold upd
  by_cases hj : j = i
  · subst hj; simp [List.count_eq_zero_of_not_mem hi]
  · simp [hj, Machine.pad]

/-- A step does not touch what nobody holds. -/
theorem pad_step {L D : List Nat} {cfg : Config} {m m' : Machine} {l : Label} (h : InvL L cfg (m.pad D)) (hd : ∀ i ∈ D, m.refs i = 0) (hs : Step cfg m l m') :
    Step cfg (m.pad D) l (m'.pad D) ∧ ∀ i ∈ D, m'.refs i = 0 := by
  have hfree : ∀ i, i ∈ m.holds → i ∉ D := fun i hi hm => h.dead_unheld (hd i hm) hi
  have hreg : ∀ i ∈ D, i ∈ (m.pad D).regs := fun i hi => h.core.held i (by rw [pad_holds]; exact List.mem_append_right _ hi)
  have hzero : ∀ {i : Nat} {v : Int}, i ∉ D → ∀ j ∈ D, upd m.refs i v j = 0 := by
    intro i v hi j hj
    unfold upd
    rw [if_neg (by rintro rfl; exact hi hj)]
    exact hd j hj
  have hcount : ∀ {i : Nat}, i ∉ D → (m.pad D).refs i = m.refs i := by
    intro i hi
    change m.refs i + _ = _
    rw [List.count_eq_zero_of_not_mem hi]
    simp
  cases hs with
  | refused k env hr => exact ⟨.refused k env hr, hd⟩
  | call k env hr run => exact ⟨Step.call (m := m.pad D) k env hr run, hd⟩
  | act r a rest run phase todo plain =>
    have hcase : ((∃ i, i ∉ D ∧ ((a = .register i) ∨ (a = .inc i))) ∨ (∀ i, a ≠ .register i ∧ a ≠ .inc i)) := by
      by_cases h1 : ∃ i, a = .register i
      · obtain ⟨i, rfl⟩ := h1
        refine .inl ⟨i, ?_, .inl rfl⟩
        intro hi
        have hn := h.regsNodup
        change ((m.pad D).regs ++ registers (runTodo m.running)).Nodup at hn
        rw [run] at hn
        simp only [runTodo, todo, registers, List.filterMap_cons] at hn
        exact (List.nodup_append.mp hn).2.2 i (hreg i hi) i (List.mem_cons_self ..) rfl
      · by_cases h2 : ∃ i, a = .inc i
        · obtain ⟨i, rfl⟩ := h2
          refine .inl ⟨i, ?_, .inr rfl⟩
          have hcur : ∀ (pre tail : List Act), r.todo = pre ++ tail → (∀ b ∈ tail, b.stage = 7) → (∀ i, Act.inc i ∈ pre → i ∈ m.currentInsts) → i ∈ m.currentInsts := by
            intro pre tail ht h7 hinc
            rw [todo] at ht
            cases pre with
            | nil =>
              have := h7 (.inc i) (by rw [List.nil_append] at ht; rw [← ht]; simp)
              simp [Act.stage] at this
            | cons b p =>
              simp at ht
              exact hinc i (by rw [← ht.1]; simp)
          have hp : i ∈ m.currentInsts ∧ m.pending = none := by
            cases h.run r run with
            | fail pre rel htodo held idle res pending stage incs order => exact ⟨hcur pre _ htodo (stage_release rel) incs, pending⟩
            | ok pre new htodo held idle d res pending stage incs good built => exact ⟨hcur pre _ htodo stage_tail incs, pending⟩
            | spawned new dyn htodo held idle d res pending good built => rw [todo] at htodo; cases htodo
            | last htodo held idle d res pending =>
              rcases htodo with ht | ht
              · rw [todo] at ht; cases hk : r.kind <;> rw [hk] at ht <;> cases ht
              · rw [todo] at ht; cases ht
          exact hfree i (by simp [Machine.holds, Machine.curHeld, hp.2, hp.1])
        · exact .inr (fun i => ⟨fun e => h1 ⟨i, e⟩, fun e => h2 ⟨i, e⟩⟩)
    have e : ({ (m.log (.act a)).perform cfg a with running := some { r with todo := rest, held := heldAfter r.held a } } : Machine).pad D =
        { ((m.pad D).log (.act a)).perform cfg a with running := some { r with todo := rest, held := heldAfter r.held a } } := by
      rcases hcase with ⟨i, hi, rfl | rfl⟩ | hno
      · unfold Machine.pad
        simp only [Machine.perform, Machine.log]
        congr 1
        exact pad_upd m D hi
      · unfold Machine.pad
        simp only [Machine.perform, Machine.log]
        congr 1
        rw [pad_upd m D hi]
        change upd (m.pad D).refs i _ = upd (m.pad D).refs i ((m.pad D).refs i + 1)
        rw [hcount hi]
      · cases a with
        | register i => exact absurd rfl (hno i).1
        | inc i => exact absurd rfl (hno i).2
        | publish pm =>
          unfold Machine.pad
          simp only [Machine.perform, Machine.log]
          congr 1
          change (if m.pending.isSome then m.abandoned else m.currentInsts ++ m.abandoned) ++ D = if m.pending.isSome then m.abandoned ++ D else m.currentInsts ++ (m.abandoned ++ D)
          split
          · rfl
          · rw [List.append_assoc]
        | _ => rfl
    refine ⟨?_, ?_⟩
    · rw [e]; exact Step.act (m := m.pad D) r a rest run phase todo plain
    · rcases hcase with ⟨i, hi, rfl | rfl⟩ | hno
      · exact hzero hi
      · exact hzero hi
      · cases a with
        | register i => exact absurd rfl (hno i).1
        | inc i => exact absurd rfl (hno i).2
        | _ => exact hd
  | release r i rest run phase todo =>
    have hi : i ∉ D := by
      obtain ⟨rel, ht, hh, -⟩ := h.releasing (r := r) run (.inl ⟨i, rest, todo⟩)
      refine hfree i ?_
      rw [todo] at ht
      cases rel with
      | nil => cases ht
      | cons b q =>
        simp at ht
        have : i ∈ r.held := hh.mem_iff.mpr (by rw [ht.1]; simp)
        simp [Machine.holds, run, runHeld, this]
    refine ⟨?_, hzero hi⟩
    have := Step.release (cfg := cfg) (m := m.pad D) r i rest run phase todo
    rw [hcount hi] at this
    rw [show (m.pad D).refs = fun j => m.refs j + (D.count j : Int) from rfl] at this
    have e := pad_upd m D (v := m.refs i - 1) hi
    change _ = upd (fun j => m.refs j + (D.count j : Int)) i _ at e
    rw [← e] at this
    exact this
  | runSkip r i run phase once => exact ⟨Step.runSkip (m := m.pad D) r i run phase once, hd⟩
  | runBegin r i run phase once => exact ⟨Step.runBegin (m := m.pad D) r i run phase once, hd⟩
  | runEnd r i run phase => exact ⟨Step.runEnd (m := m.pad D) r i run phase, hd⟩
  | ret r run todo phase => exact ⟨Step.ret (m := m.pad D) r run todo phase, hd⟩
  | freeDec t x y frees phase i rest todo due =>
    have hi : i ∉ D := by
      refine hfree i ?_
      unfold Machine.holds
      refine List.mem_append_left _ (List.mem_flatMap.mpr ⟨t, by rw [frees]; simp, by rw [todo]; simp⟩)
    refine ⟨?_, hzero hi⟩
    have := Step.freeDec (cfg := cfg) (m := m.pad D) t x y frees phase i rest todo due
    rw [hcount hi] at this
    rw [show (m.pad D).refs = fun j => m.refs j + (D.count j : Int) from rfl] at this
    have e := pad_upd m D (v := m.refs i - 1) hi
    change _ = upd (fun j => m.refs j + (D.count j : Int)) i _ at e
    rw [← e] at this
    exact this
  | freeSkip t x y frees i phase once => exact ⟨Step.freeSkip (m := m.pad D) t x y frees i phase once, hd⟩
  | freeBegin t x y frees i phase once => exact ⟨Step.freeBegin (m := m.pad D) t x y frees i phase once, hd⟩
  | freeEnd t x y frees i phase => exact ⟨Step.freeEnd (m := m.pad D) t x y frees i phase, hd⟩
  | tick d => exact ⟨Step.tick (m := m.pad D) d, hd⟩
  | read => exact ⟨Step.read (m := m.pad D), hd⟩
  | readCounter => exact ⟨Step.readCounter (m := m.pad D), hd⟩

theorem InvL.perm {L : List Nat} {cfg : Config} {m : Machine} (h : InvL L cfg m) {A : List Nat} (hA : A.Perm m.abandoned) : InvL A cfg { m with abandoned := A } := by
  refine ⟨?_, h.cur, h.idle, h.frees, ?_, h.regsNodup, h.regsLt, fun _ => rfl, h.sound⟩
  · have hc := h.core
    unfold Machine.CoreOK at *
    refine hc.congr ?_ (List.Perm.refl _) (List.Perm.refl _)
    change (m.frees.flatMap (·.todo) ++ (m.curHeld ++ (runHeld m.running ++ A))).Perm (m.frees.flatMap (·.todo) ++ (m.curHeld ++ (runHeld m.running ++ m.abandoned)))
    exact (((hA.append_left _).append_left _).append_left _)
  · intro r hr
    exact (h.run r hr).congr rfl rfl rfl rfl

/-- One more reference of a plugin that has one. -/
theorem InvL.addRef {L : List Nat} {cfg : Config} {m : Machine} (h : InvL L cfg m) {i : Nat} (hi : i ∈ m.holds) {A : List Nat} (hA : A.Perm (i :: m.abandoned)) :
    InvL A cfg { m with refs := upd m.refs i (m.refs i + 1), abandoned := A } := by
  refine ⟨?_, h.cur, h.idle, h.frees, ?_, h.regsNodup, h.regsLt, fun _ => rfl, h.sound⟩
  · have hc := h.core.inc hi
    unfold Machine.CoreOK at *
    refine hc.congr ?_ (List.Perm.refl _) (List.Perm.refl _)
    change (m.frees.flatMap (·.todo) ++ (m.curHeld ++ (runHeld m.running ++ A))).Perm (i :: (m.frees.flatMap (·.todo) ++ (m.curHeld ++ (runHeld m.running ++ m.abandoned))))
    rw [List.perm_iff_count] at hA ⊢
    intro j
    have := hA j
    simp only [List.count_append, List.count_cons] at *
    omega
  · intro r hr
    exact (h.run r hr).congr rfl rfl rfl rfl

/-- One reference less of a plugin that has more. -/
theorem InvL.subRef {L : List Nat} {cfg : Config} {m : Machine} (h : InvL L cfg m) {i : Nat} (hi : 1 < m.refs i) {A : List Nat} (hA : (i :: A).Perm m.abandoned) :
    InvL A cfg { m with refs := upd m.refs i (m.refs i - 1), abandoned := A } := by
  refine ⟨?_, h.cur, h.idle, h.frees, ?_, h.regsNodup, h.regsLt, fun _ => rfl, h.sound⟩
  · have hc : Core m.refs m.once (i :: (m.frees.flatMap (·.todo) ++ (m.curHeld ++ (runHeld m.running ++ A)))) m.zs m.ins m.regs m.begins m.ends := by
      refine h.core.congr ?_ (List.Perm.refl _) (List.Perm.refl _)
      change (i :: (m.frees.flatMap (·.todo) ++ (m.curHeld ++ (runHeld m.running ++ A)))).Perm (m.frees.flatMap (·.todo) ++ (m.curHeld ++ (runHeld m.running ++ m.abandoned)))
      rw [List.perm_iff_count] at hA ⊢
      intro j
      have := hA j
      simp only [List.count_append, List.count_cons] at *
      omega
    have := hc.dec
    rw [if_pos (by omega)] at this
    exact this
  · intro r hr
    exact (h.run r hr).congr rfl rfl rfl rfl

theorem mem_holds_pad {m : Machine} {D : List Nat} {i : Nat} (h : i ∈ m.holds) : i ∈ (m.pad D).holds := by
  rw [pad_holds]; exact List.mem_append_left _ h

theorem hostInv {cfg : Config} (hcfg : cfg.OK) {m : Machine} {H D : List Nat} (h : HostReachable cfg m H D) : HostInv cfg m H D := by
  induction h with
  | init =>
    refine ⟨⟨[], ?_⟩, by simp, fun _ => List.Perm.refl _, by simp⟩
    have := InvL.init cfg
    have e : Machine.init.pad [] = Machine.init := by
      unfold Machine.pad Machine.init
      simp
    rw [e]; exact this
  | @go m m' H D l _ hs ih =>
    obtain ⟨L, hL⟩ := ih.inv
    have hst := step_view hs
    obtain ⟨h1, h2⟩ := pad_step hL ih.dead hst
    refine ⟨⟨L, hL.step hcfg h1⟩, fun i => Nat.le_trans (ih.host i) (abandoned_mono hst i), ?_, h2⟩
    intro hd
    have e1 := hL.dyn hd
    have e2 := (hL.step hcfg h1).dyn hd
    have e : m'.abandoned = m.abandoned := List.append_cancel_right (e2.trans e1.symm)
    rw [e]; exact ih.dyn hd
  | @hold m m' H D i _ hr hs ih =>
    cases hs
    obtain ⟨L, hL⟩ := ih.inv
    have hi : i ∈ m.holds := by
      have := hL.refs_holds i
      exact List.count_pos_iff.mp (by omega)
    have hD : i ∉ D := fun hm => by have := ih.dead i hm; omega
    refine ⟨⟨(i :: m.abandoned) ++ D, ?_⟩, ?_, ?_, ?_⟩
    · have := hL.addRef (mem_holds_pad (D := D) hi) (A := (i :: m.abandoned) ++ D) (List.Perm.refl _)
      have e1 : (m.pad D).refs i = m.refs i := by
        change m.refs i + _ = _
        rw [List.count_eq_zero_of_not_mem hD]; simp
      rw [e1] at this
      have e := pad_upd m D (v := m.refs i + 1) hD
      rw [← e] at this
      exact this
    · intro j
      change (i :: H).count j ≤ (i :: m.abandoned).count j
      rw [List.count_cons, List.count_cons]
      exact Nat.add_le_add_right (ih.host j) _
    · intro hd; exact (ih.dyn hd).cons i
    · intro j hj
      change upd m.refs i _ j = 0
      unfold upd
      rw [if_neg (by rintro rfl; exact hD hj)]
      exact ih.dead j hj
  | @unhold m m' H D i _ hm hr hs ih =>
    cases hs
    obtain ⟨L, hL⟩ := ih.inv
    have hab : i ∈ m.abandoned := List.count_pos_iff.mp (Nat.lt_of_lt_of_le (List.count_pos_iff.mpr hm) (ih.host i))
    have hD : i ∉ D := fun hm => by have := ih.dead i hm; omega
    refine ⟨⟨m.abandoned.erase i ++ D, ?_⟩, ?_, ?_, ?_⟩
    · have e1 : (m.pad D).refs i = m.refs i := by
        change m.refs i + _ = _
        rw [List.count_eq_zero_of_not_mem hD]; simp
      have := hL.subRef (by rw [e1]; exact hr) (A := m.abandoned.erase i ++ D) ((List.perm_cons_erase hab).symm.append_right D)
      rw [e1] at this
      have e := pad_upd m D (v := m.refs i - 1) hD
      rw [← e] at this
      exact this
    · intro j
      change (H.erase i).count j ≤ (m.abandoned.erase i).count j
      have := ih.host j
      rw [List.count_erase, List.count_erase]
      split <;> omega
    · intro hd; exact (ih.dyn hd).erase i
    · intro j hj
      change upd m.refs i _ j = 0
      unfold upd
      rw [if_neg (by rintro rfl; exact hD hj)]
      exact ih.dead j hj
  | @last m m' H D i _ hm hr hs ih =>
    cases hs
    obtain ⟨L, hL⟩ := ih.inv
    have hab : i ∈ m.abandoned := List.count_pos_iff.mp (Nat.lt_of_lt_of_le (List.count_pos_iff.mpr hm) (ih.host i))
    have hD : i ∉ D := fun hm => by have := ih.dead i hm; omega
    refine ⟨⟨m.abandoned.erase i ++ (i :: D), ?_⟩, ?_, ?_, ?_⟩
    · have hp : (m.abandoned.erase i ++ (i :: D)).Perm (m.pad D).abandoned := by
        change (m.abandoned.erase i ++ (i :: D)).Perm (m.abandoned ++ D)
        exact List.perm_middle.trans ((List.perm_cons_erase hab).symm.append_right D)
      have := hL.perm hp
      have e : (fun j => upd m.refs i (m.refs i - 1) j + ((i :: D).count j : Int)) = (m.pad D).refs := by
        funext j
        change _ = m.refs j + _
        unfold upd
        by_cases hj : j = i
        · subst hj; simp; omega
        · have : ¬ i = j := fun e => hj e.symm
          simp [hj, this]
      unfold Machine.pad
      simp only
      rw [e]
      exact this
    · intro j
      change (H.erase i).count j ≤ (m.abandoned.erase i).count j
      have := ih.host j
      rw [List.count_erase, List.count_erase]
      split <;> omega
    · intro hd; exact (ih.dyn hd).erase i
    · intro j hj
      change upd m.refs i _ j = 0
      unfold upd
      split
      · omega
      · rename_i hne
        rcases List.mem_cons.mp hj with e | hj'
        · exact absurd e hne
        · exact ih.dead j hj'

/-! ### The theorems -/

/-- What holds however counts are changed. -/
structure OnceInv (m : Machine) : Prop where
  begins : ∀ i, m.begins.count i = if m.once i then 1 else 0
  ends : ∀ i, m.ends.count i + m.ins.count i = m.begins.count i

theorem OnceInv.silent {m m' : Machine} (h : OnceInv m) (hb : m'.begins = m.begins) (he : m'.ends = m.ends) (ho : m'.once = m.once) (hi : m'.ins = m.ins) : OnceInv m' := by
  refine ⟨?_, ?_⟩
  · intro i; rw [hb, ho]; exact h.begins i
  · intro i; rw [he, hi, hb]; exact h.ends i

theorem OnceInv.start {m m' : Machine} (h : OnceInv m) {i : Nat} (ho : m.once i = false) (hb : m'.begins = m.begins ++ [i]) (he : m'.ends = m.ends) (ho' : m'.once = upd m.once i true) (hi : m'.ins.Perm (i :: m.ins)) : OnceInv m' := by
  refine ⟨?_, ?_⟩
  · intro j
    have := h.begins j
    rw [hb, ho', List.count_append, this]
    unfold upd
    by_cases hj : j = i
    · subst hj; simp [ho]
    · have : ¬ i = j := fun e => hj e.symm
      simp [hj, this]
  · intro j
    have := h.ends j
    rw [he, hb, hi.count_eq, List.count_append, List.count_cons]
    simp only [List.count_cons, List.count_nil]
    omega

theorem OnceInv.stop {m m' : Machine} (h : OnceInv m) {i : Nat} (hb : m'.begins = m.begins) (he : m'.ends = m.ends ++ [i]) (ho' : m'.once = m.once) (hi : m.ins.Perm (i :: m'.ins)) : OnceInv m' := by
  refine ⟨?_, ?_⟩
  · intro j; rw [hb, ho']; exact h.begins j
  · intro j
    have := h.ends j
    rw [hi.count_eq, List.count_cons] at this
    rw [he, hb, List.count_append]
    simp only [List.count_cons, List.count_nil]
    omega

theorem OnceInv.step {cfg : Config} {m m' : Machine} {l : Label} (h : OnceInv m) (hs : Step cfg m l m') : OnceInv m' := by
  have hfr : ∀ {x y : List FreeTask} {t t' : FreeTask}, m.frees = x ++ t :: y → ∀ {a : List Nat}, t.phase.ins = a → ∀ {b : List Nat}, t'.phase.ins = b →
      (runIns m.running ++ m.frees.flatMap (·.phase.ins)).Perm (a ++ (runIns m.running ++ (x.flatMap (·.phase.ins) ++ y.flatMap (·.phase.ins)))) ∧
      (runIns m.running ++ (x ++ t' :: y).flatMap (·.phase.ins)).Perm (b ++ (runIns m.running ++ (x.flatMap (·.phase.ins) ++ y.flatMap (·.phase.ins)))) := by
    intro x y t t' hf a ha b hb
    subst ha hb
    rw [hf]
    simp only [List.flatMap_append, List.flatMap_cons]
    constructor <;> (rw [List.perm_iff_count]; intro j; simp only [List.count_append]; omega)
  have hperm : ∀ {m1 : Machine}, m1.ins.Perm m.ins → m1.begins = m.begins → m1.ends = m.ends → m1.once = m.once → OnceInv m1 := by
    intro m1 hp hb he ho
    refine ⟨fun i => by rw [hb, ho]; exact h.begins i, fun i => by rw [he, hp.count_eq, hb]; exact h.ends i⟩
  cases hs with
  | refused k env hr => exact h.silent (by rw [begins_log]; simp) (by rw [ends_log]; simp) rfl rfl
  | call k env hr run =>
    refine h.silent ?_ ?_ rfl ?_
    · change (m.log (.called k)).begins = _; rw [begins_log]; simp
    · change (m.log (.called k)).ends = _; rw [ends_log]; simp
    · simp [Machine.ins, run, runIns, Phase.ins]; rfl
  | act r a rest run phase todo plain =>
    have hb : ((m.log (.act a)).perform cfg a).begins = m.begins := by
      rw [begins_congr (m := m.log (.act a)) perform_trace', begins_log]; simp
    have he : ((m.log (.act a)).perform cfg a).ends = m.ends := by
      rw [ends_congr (m := m.log (.act a)) perform_trace', ends_log]; simp
    refine hperm ?_ hb he ?_
    · unfold Machine.ins
      rw [run]
      change (runIns (some { r with todo := rest, held := heldAfter r.held a }) ++ ((m.log (.act a)).perform cfg a).frees.flatMap (·.phase.ins)).Perm _
      have : ((m.log (.act a)).perform cfg a).frees.flatMap (·.phase.ins) = m.frees.flatMap (·.phase.ins) := by
        cases a <;> first | rfl | (simp [Machine.perform, Machine.log, Phase.ins]; done)
      rw [this]
      exact List.Perm.refl _
    · change ((m.log (.act a)).perform cfg a).once = m.once
      cases a <;> rfl
  | release r i rest run phase todo =>
    refine hperm ?_ ?_ ?_ rfl
    · unfold Machine.ins
      rw [run]
      change ((if m.refs i - 1 > 0 then Phase.idle else Phase.zero i).ins ++ m.frees.flatMap (·.phase.ins)).Perm (r.phase.ins ++ m.frees.flatMap (·.phase.ins))
      rw [phase, ite_ins]
      exact List.Perm.refl _
    · change (m.log (.act (.release i))).begins = _; rw [begins_log]; simp
    · change (m.log (.act (.release i))).ends = _; rw [ends_log]; simp
  | runSkip r i run phase once =>
    refine hperm ?_ rfl rfl rfl
    unfold Machine.ins
    rw [run]
    simp only [runIns, phase, Phase.ins]
    exact List.Perm.refl _
  | runBegin r i run phase once =>
    refine h.start once ?_ ?_ rfl ?_
    · change (m.log (.freeBegin i)).begins = _; rw [begins_log]
    · change (m.log (.freeBegin i)).ends = _; rw [ends_log]; simp
    · unfold Machine.ins
      rw [run]
      simp only [runIns, phase, Phase.ins]
      exact List.Perm.refl _
  | runEnd r i run phase =>
    refine h.stop ?_ ?_ rfl ?_ (i := i)
    · change (m.log (.freeEnd i)).begins = _; rw [begins_log]; simp
    · change (m.log (.freeEnd i)).ends = _; rw [ends_log]
    · unfold Machine.ins
      rw [run]
      simp only [runIns, phase, Phase.ins]
      exact List.Perm.refl _
  | ret r run todo phase =>
    refine h.silent ?_ ?_ rfl ?_
    · change (m.log (.returned r.kind r.res)).begins = _; rw [begins_log]; simp
    · change (m.log (.returned r.kind r.res)).ends = _; rw [ends_log]; simp
    · simp [Machine.ins, run, runIns, phase, Phase.ins]; rfl
  | freeDec t x y frees phase i rest todo due =>
    obtain ⟨h1, h2⟩ := hfr (t' := { t with todo := rest, phase := if m.refs i - 1 > 0 then .idle else .zero i }) frees (a := []) (by rw [phase]; rfl) (b := []) (by
      change (if m.refs i - 1 > 0 then Phase.idle else Phase.zero i).ins = []
      split <;> rfl)
    exact hperm (h2.trans h1.symm) rfl rfl rfl
  | freeSkip t x y frees i phase once =>
    obtain ⟨h1, h2⟩ := hfr (t' := { t with phase := .idle }) frees (a := []) (by rw [phase]; rfl) (b := []) rfl
    exact hperm (h2.trans h1.symm) rfl rfl rfl
  | freeBegin t x y frees i phase once =>
    obtain ⟨h1, h2⟩ := hfr (t' := { t with phase := .inside i }) frees (a := []) (by rw [phase]; rfl) (b := [i]) rfl
    refine h.start once ?_ ?_ rfl ?_
    · change (m.log (.freeBegin i)).begins = _; rw [begins_log]
    · change (m.log (.freeBegin i)).ends = _; rw [ends_log]; simp
    · exact h2.trans (h1.symm.cons i)
  | freeEnd t x y frees i phase =>
    obtain ⟨h1, h2⟩ := hfr (t' := { t with phase := .idle }) frees (a := [i]) (by rw [phase]; rfl) (b := []) rfl
    refine h.stop ?_ ?_ rfl ?_ (i := i)
    · change (m.log (.freeEnd i)).begins = _; rw [begins_log]; simp
    · change (m.log (.freeEnd i)).ends = _; rw [ends_log]
    · exact h1.trans (h2.symm.cons i)
  | tick d => exact h.silent rfl rfl rfl rfl
  | read => exact h.silent (by rw [begins_log]; simp) (by rw [ends_log]; simp) rfl rfl
  | readCounter => exact h.silent (by rw [begins_log]; simp) (by rw [ends_log]; simp) rfl rfl

/-- **C85.** Whatever the host does to the counts, `OnFree` of an instance is called at most once. -/
theorem C85_at_most_once {cfg : Config} {m : Machine} (h : AnyHost cfg m) (i : Nat) : m.ends.count i ≤ m.begins.count i ∧ m.begins.count i ≤ 1 := by
  have hi : OnceInv m := by
    induction h with
    | init => exact ⟨fun i => rfl, fun i => rfl⟩
    | @step m m' l _ hs ih =>
      cases l with
      | go l => exact ih.step (step_view hs)
      | hold i => cases hs; exact ih.silent rfl rfl rfl rfl
      | unhold i => cases hs; exact ih.silent rfl rfl rfl rfl
      | set i v => cases hs; exact ih.silent rfl rfl rfl rfl
  have h1 := hi.begins i
  have h2 := hi.ends i
  refine ⟨by omega, ?_⟩
  rw [h1]; split <;> omega

theorem HostInv.once_unheld {cfg : Config} {m : Machine} {H D : List Nat} (hx : HostInv cfg m H D) {i : Nat} (hm : i ∈ m.begins) : m.once i = true ∧ i ∈ m.regs ∧ i ∉ m.holds ∧ i ∉ D := by
  obtain ⟨L, hL⟩ := hx.inv
  have hbe : m.begins.count i = if m.once i then 1 else 0 := hL.core.begins_eq i
  have ho : m.once i = true := by
    cases ho : m.once i with
    | true => rfl
    | false =>
      rw [ho] at hbe
      exact absurd (List.count_pos_iff.mpr hm) (by simp [hbe])
  obtain ⟨h1, h2⟩ := hL.core.once_ok i ho
  rw [pad_holds, List.mem_append, not_or] at h2
  exact ⟨ho, h1, h2.1, h2.2⟩

/-- **C85.** While the host has a reference of an instance, its `OnFree` has not been called, and its count is at least the number of references the host has. -/
theorem C85_not_while_held {cfg : Config} (hcfg : cfg.OK) {m : Machine} {H D : List Nat} (h : HostReachable cfg m H D) {i : Nat} (hi : i ∈ H) :
    i ∉ m.begins ∧ (H.count i : Int) ≤ m.refs i := by
  have hx := hostInv hcfg h
  obtain ⟨L, hL⟩ := hx.inv
  have h1 := hx.host i
  have h2 := List.count_pos_iff.mpr hi
  have h3 : m.abandoned.count i ≤ m.holds.count i := by
    unfold Machine.holds
    simp only [List.count_append]
    omega
  refine ⟨fun hm => (hx.once_unheld hm).2.2.1 (List.count_pos_iff.mp (by omega)), ?_⟩
  rw [hL.refs_holds i]
  omega

/-- **C85.** What holds without the references of the host holds with them: nothing is freed that is not registered or that is in the current manager while no call runs, nothing twice, and no count is negative. -/
theorem C85_safe {cfg : Config} (hcfg : cfg.OK) {m : Machine} {H D : List Nat} (h : HostReachable cfg m H D) (i : Nat) :
    0 ≤ m.refs i ∧ m.ends.count i ≤ m.begins.count i ∧ m.begins.count i ≤ 1 ∧ (i ∈ m.begins → i ∈ m.regs ∧ (m.running = none → i ∉ m.currentInsts)) := by
  have hx := hostInv hcfg h
  obtain ⟨L, hL⟩ := hx.inv
  have hbe : m.begins.count i = if m.once i then 1 else 0 := hL.core.begins_eq i
  have hee : m.ends.count i + m.ins.count i = m.begins.count i := hL.core.ends_eq i
  refine ⟨?_, by omega, ?_, ?_⟩
  · rw [hL.refs_holds i]; exact Int.natCast_nonneg _
  · rw [hbe]; split <;> omega
  · intro hm
    obtain ⟨-, h1, h2, -⟩ := hx.once_unheld hm
    refine ⟨h1, fun hr hcur => h2 ?_⟩
    have hp : m.pending = none := hL.idle hr
    unfold Machine.holds Machine.curHeld
    rw [hp]
    simp only [List.mem_append]
    exact .inr (.inl hcur)

theorem InvL.free_todo_nodup {L : List Nat} {cfg : Config} {m : Machine} (h : InvL L cfg m) {t : FreeTask} (ht : t ∈ m.frees) : t.todo.Nodup := by
  obtain ⟨pm, -, hs, hsuf⟩ := h.frees t ht
  have hn : pm.releaseList.Nodup := (List.Perm.nodup_iff hs.release_perm).mpr hs.nodup
  exact (List.nodup_append.mp (hn.sublist hsuf.sublist)).2.1

/-- **C85.** While no call runs, `Refs` is the number of superseded managers that have not released the instance, plus one if it is in the current manager, plus the number of references the host has. -/
theorem C85_refs {cfg : Config} (hcfg : cfg.OK) (hst : cfg.static = none) {m : Machine} {H D : List Nat} (h : HostReachable cfg m H D) (hr : m.running = none) (i : Nat) :
    m.refs i = ((m.frees.countP (fun t => t.todo.contains i) + (if i ∈ m.currentInsts then 1 else 0) + H.count i : Nat) : Int) := by
  have hx := hostInv hcfg h
  obtain ⟨L, hL⟩ := hx.inv
  rw [hL.refs_holds i]
  congr 1
  have hp : m.pending = none := hL.idle hr
  have hd : cfg.static.isSome = false := by rw [hst]; rfl
  unfold Machine.holds Machine.curHeld
  rw [hp, hr]
  simp only [List.count_append, runHeld, List.count_nil]
  rw [(hx.dyn hd).count_eq, count_todo (l := m.frees) (fun t ht => hL.free_todo_nodup ht)]
  have hn : m.currentInsts.Nodup := by
    unfold Machine.currentInsts
    cases hc : m.current with
    | none => simp
    | some pm => exact (hL.cur pm hc).1.nodup
  simp only [Option.isSome_none, Bool.false_eq_true, if_false]
  rw [hn.count]
  omega

/-- **C85.** Everything that the swapper gives back last is freed: when the program is at rest, each registered instance that is not in the current manager, of which the host has no reference and of which it has not given back
the last one, has been freed, once. -/
theorem C85_others_freed {cfg : Config} (hcfg : cfg.OK) (hst : cfg.static = none) {m : Machine} {H D : List Nat} (h : HostReachable cfg m H D) (hq : m.Quiet) {i : Nat} (hi : i ∈ m.regs)
    (hc : i ∉ m.currentInsts) (hH : i ∉ H) (hD : i ∉ D) : m.begins.count i = 1 ∧ m.ends.count i = 1 := by
  have hx := hostInv hcfg h
  obtain ⟨L, hL⟩ := hx.inv
  obtain ⟨hr, hf⟩ := hq
  have h1 : m.frees.flatMap (·.todo) = [] := List.flatMap_eq_nil_iff.mpr (fun t ht => (hf t ht).1)
  have hp : m.pending = none := hL.idle hr
  have hab : i ∉ m.abandoned := fun hm => hH ((hx.dyn (by rw [hst]; rfl)).mem_iff.mp hm)
  have hh : i ∉ (m.pad D).holds := by
    rw [pad_holds]
    unfold Machine.holds Machine.curHeld
    rw [h1, hp, hr]
    simp [runHeld, hc, hab, hD]
  have hz : (m.pad D).zs = [] := by
    change runZs m.running ++ m.frees.flatMap (·.phase.zs) = []
    rw [hr]
    simp [runZs]
    intro t ht; rw [(hf t ht).2]; rfl
  have hin : m.ins = [] := by
    unfold Machine.ins
    rw [hr]
    simp [runIns]
    intro t ht; rw [(hf t ht).2]; rfl
  have hb : m.begins.count i = if m.once i then 1 else 0 := hL.core.begins_eq i
  have he : m.ends.count i + m.ins.count i = m.begins.count i := hL.core.ends_eq i
  rw [hin] at he
  rcases hL.core.done i hi hh with ho | ho
  · have ho' : m.once i = true := ho
    rw [ho'] at hb
    simp at hb he
    omega
  · rw [hz] at ho; cases ho

theorem HostLater.reach {cfg : Config} {m m' : Machine} {H D H' D' : List Nat} (h : HostReachable cfg m H D) (hl : HostLater cfg m H D m' H' D') : HostReachable cfg m' H' D' ∧ ∀ i ∈ D, i ∈ D' := by
  induction hl with
  | refl => exact ⟨h, fun i hi => hi⟩
  | go l _ hs ih => exact ⟨.go l (ih h).1 hs, (ih h).2⟩
  | hold i _ hr hs ih => exact ⟨.hold i (ih h).1 hr hs, (ih h).2⟩
  | unhold i _ hm hr hs ih => exact ⟨.unhold i (ih h).1 hm hr hs, (ih h).2⟩
  | last i _ hm hr hs ih => exact ⟨.last i (ih h).1 hm hr hs, fun j hj => List.mem_cons_of_mem _ ((ih h).2 j hj)⟩

/-- **C85.** A plugin of which the host gives back the last reference is never freed, whatever happens afterwards: the host's `Refs.Dec()` calls nothing, and nobody else will. -/
theorem C85_last_never_freed {cfg : Config} (hcfg : cfg.OK) {m m' m'' : Machine} {H D H' D' : List Nat} (h : HostReachable cfg m H D) {i : Nat} (hi : i ∈ H) (hr : m.refs i = 1)
    (hs : m.hstep cfg (.unhold i) = some m') (hl : HostLater cfg m' (H.erase i) (i :: D) m'' H' D') : i ∉ m''.begins ∧ m''.refs i = 0 := by
  obtain ⟨h1, h2⟩ := hl.reach (.last i h hi hr hs)
  have hx := hostInv hcfg h1
  have hm := h2 i (by simp)
  exact ⟨fun hb => (hx.once_unheld hb).2.2.2 hm, hx.dead i hm⟩

/-- **C85.** A program whose host never touches the counts is one of these. -/
theorem C85_without_host {cfg : Config} {m : Machine} (h : Reachable cfg m) : HostReachable cfg m [] [] := by
  induction h with
  | init => exact .init
  | step l _ hs ih => exact .go l ih hs

/-- **C85.** The references of the host delay nothing else: the program comes to rest without any step of the host. -/
theorem C85_comes_to_rest {cfg : Config} {m : Machine} {H D : List Nat} (h : HostReachable cfg m H D) : ∃ m', HostLater cfg m H D m' H D ∧ HostReachable cfg m' H D ∧ m'.Quiet := by
  obtain ⟨ls, m', hs, hq, -⟩ := drain (cfg := cfg) m.weight m rfl
  have go : ∀ (ls : List Label) (m1 : Machine), HostLater cfg m H D m1 H D → HostReachable cfg m1 H D → m1.steps cfg ls = some m' → HostLater cfg m H D m' H D ∧ HostReachable cfg m' H D := by
    intro ls
    induction ls with
    | nil => intro m1 h1 h2 h3; cases h3; exact ⟨h1, h2⟩
    | cons l r ih =>
      intro m1 h1 h2 h3
      unfold Machine.steps at h3
      cases hl : m1.step cfg l with
      | none => rw [hl] at h3; cases h3
      | some m2 => rw [hl] at h3; exact ih m2 (.go l h1 hl) (.go l h2 hl) h3
  obtain ⟨h1, h2⟩ := go ls m .refl h hs
  exact ⟨m', h1, h2, hq⟩

end

/-! ### The hypotheses are met by real executions -/

section Examples
open Demo
attribute [local instance] Demo.rt

/-- A step of the program with the host, and the references of the host. -/
def hostExec (c : Config) : Machine × List Nat × List Nat → HLabel → Option (Machine × List Nat × List Nat)
  | (m, H, D), .go l => (m.hstep c (.go l)).map (fun m' => (m', H, D))
  | (m, H, D), .hold i => if 0 < m.refs i then (m.hstep c (.hold i)).map (fun m' => (m', i :: H, D)) else none
  | (m, H, D), .unhold i => if i ∈ H ∧ 1 < m.refs i then (m.hstep c (.unhold i)).map (fun m' => (m', H.erase i, D))
      else if i ∈ H ∧ m.refs i = 1 then (m.hstep c (.unhold i)).map (fun m' => (m', H.erase i, i :: D)) else none
  | _, .set _ _ => none

theorem hostExec_reachable {c : Config} {s s' : Machine × List Nat × List Nat} {l : HLabel} (h : HostReachable c s.1 s.2.1 s.2.2) (hs : hostExec c s l = some s') : HostReachable c s'.1 s'.2.1 s'.2.2 := by
  obtain ⟨m, H, D⟩ := s
  cases l with
  | go l =>
    obtain ⟨m', hm, rfl⟩ := Option.map_eq_some_iff.mp hs
    exact .go l h hm
  | hold i =>
    unfold hostExec at hs
    simp only at hs
    split at hs
    · obtain ⟨m', hm, rfl⟩ := Option.map_eq_some_iff.mp hs
      exact .hold i h ‹_› hm
    · cases hs
  | unhold i =>
    unfold hostExec at hs
    simp only at hs
    split at hs
    · rename_i hc
      obtain ⟨m', hm, rfl⟩ := Option.map_eq_some_iff.mp hs
      exact .unhold i h hc.1 hc.2 hm
    · split at hs
      · rename_i hc
        obtain ⟨m', hm, rfl⟩ := Option.map_eq_some_iff.mp hs
        exact .last i h hc.1 hc.2 hm
      · cases hs
  | set i v => cases hs

def hostRun (c : Config) : Machine × List Nat × List Nat → List HLabel → Option (Machine × List Nat × List Nat)
  | s, [] => some s
  | s, l :: r => match hostExec c s l with
    | none => none
    | some s' => hostRun c s' r

theorem hostRun_reachable {c : Config} {ls : List HLabel} {s s' : Machine × List Nat × List Nat} (h : HostReachable c s.1 s.2.1 s.2.2) (hr : hostRun c s ls = some s') : HostReachable c s'.1 s'.2.1 s'.2.2 := by
  induction ls generalizing s with
  | nil => cases hr; exact h
  | cons l r ih =>
    unfold hostRun at hr
    cases hs : hostExec c s l with
    | none => rw [hs] at hr; cases hr
    | some s1 => rw [hs] at hr; exact ih (hostExec_reachable h hs) hr

/-- Load `base` (instance 2) and `app` (instance 1); the host takes a reference of each; both are reloaded changed; the host gives `base` back; the delayed free of the first manager. -/
def hostSteps : List HLabel := steps1.map .go ++ [.hold 1, .hold 2] ++ (callSteps (.reload none) (env both (fs 12 23 goodBase goodApp)) 22).map .go ++ [.unhold 2] ++
  (Label.tick 15000000000 :: List.replicate 4 (Label.free 0)).map .go

set_option synthInstance.maxSize 2000 in
/-- The program is at rest; `base` has been freed, `app`, of which the host has the last reference, has not. -/
theorem host_demo : (hostRun cfg (Machine.init, [], []) hostSteps).map (fun s => (s.1.begins, s.1.ends, s.1.regs, s.1.currentInsts, s.2.1, s.2.2)) = some ([2], [2], [1, 2, 4, 5], [5, 4], [1], []) ∧
    (hostRun cfg (Machine.init, [], []) hostSteps).map (fun s => (s.1.refs 1, s.1.refs 2, s.1.running.isNone, s.1.frees.all (fun t => t.todo.isEmpty && t.phase == .idle))) = some (1, 0, true, true) := by decide +kernel

/-- The conditions of C85 are met: the host has a reference of instance 1, which is superseded; it is about to give back the last one. -/
example : ∃ m H D, HostReachable cfg m H D ∧ m.Quiet ∧ 1 ∈ H ∧ m.refs 1 = 1 ∧ 1 ∉ m.currentInsts ∧ 2 ∈ m.regs ∧ 2 ∉ m.currentInsts ∧ 2 ∉ H ∧ 2 ∉ D ∧ (∃ m', m.hstep cfg (.unhold 1) = some m') := by
  obtain ⟨h1, h2⟩ := host_demo
  cases hr : hostRun cfg (Machine.init, [], []) hostSteps with
  | none => rw [hr] at h1; cases h1
  | some s =>
    rw [hr] at h1 h2
    simp only [Option.map_some, Option.some.injEq, Prod.mk.injEq] at h1 h2
    obtain ⟨e1, e2, e3, e4, e5, e6⟩ := h1
    obtain ⟨f1, f2, f3, f4⟩ := h2
    refine ⟨s.1, s.2.1, s.2.2, hostRun_reachable .init hr, ⟨Option.isNone_iff_eq_none.mp f3, ?_⟩, by rw [e5]; simp, f1, by rw [e4]; decide, by rw [e3]; decide, by rw [e4]; decide, by rw [e5]; decide, by rw [e6]; decide, _, rfl⟩
    intro t ht
    have := List.all_eq_true.mp f4 t ht
    simp only [Bool.and_eq_true, List.isEmpty_iff, beq_iff_eq] at this
    exact this

end Examples

end Hotswap
