import Verif.Spec.LogHist
import Verif.Proofs.LogPlan
import Verif.Proofs.Goexit
import Verif.Props.Unprintable

/-!
The invariant when the logger may panic: a state is compared with the one in which `OnFree` of the plugins at whose announcement the logger has panicked has been called and has returned.
-/

namespace Hotswap

variable [GoRuntime]

/-! ### The plan of a call -/

theorem Log.sublist {old : Option Manager} {n0 next : Nat} {l l' : List Act} (h : Log old n0 next l) (hs : l'.Sublist l) : Log old n0 next l' :=
  ⟨h.sorted.sublist hs, List.Pairwise.sublist hs h.incr, fun a ha => h.range a (hs.subset ha), fun i hi => h.incs i (hs.subset hi), fun i hi => h.regs i (hs.subset hi)⟩

omit [GoRuntime] in
theorem take_early {l pre tail : List Act} {k : Nat} (e : l = pre ++ tail) (ht : ∀ a ∈ tail, a.stage = 7) (hk : ∀ a ∈ l.take k, a.stage ≤ 5) : (l.take k).Sublist pre := by
  have he : l.take k ++ l.drop k = pre ++ tail := by rw [List.take_append_drop, e]
  rcases List.append_eq_append_iff.mp he with ⟨x, hx, -⟩ | ⟨x, hx, hy⟩
  · rw [hx]; exact List.sublist_append_left ..
  · cases x with
    | nil => rw [List.append_nil] at hx; rw [hx]
    | cons c x' =>
      have h1 := ht c (by rw [hy]; simp)
      have h2 := hk c (by rw [hx]; simp)
      omega

theorem shape_log {cfg : Config} (hcfg : cfg.OK) {env : Env} {n0 : Nat} (lg : Logger) {k : Kind} (hk : refused cfg k = false) {old : Option Manager} (hgood : ∀ om, old = some om → SoundManager n0 om) :
    Shape cfg k old n0 ((planL lg cfg env k old n0).plan.numbered (plan cfg env k old n0).next) := by
  have hs := (plan_view hcfg (env := env) (k := k) hgood).shape hk
  rcases (planL_rel lg cfg env k old n0).2 with ⟨h1, _⟩ | hc
  · rw [plan_ext h1]
    cases hs with
    | failed pre rel acts res log stage acq nodup built origin =>
      have hb : ((plan cfg env k old n0).numbered (plan cfg env k old n0).next).built = noManager := by
        unfold Plan.numbered
        cases hr : (plan cfg env k old n0).res with
        | ok d => exact absurd hr (res d)
        | err e => rfl
        | panic e => rfl
      exact .failed pre rel acts res log stage acq nodup (.inl (by rw [hb]; rfl)) (by rw [hb]; exact origin_none)
    | ok pre acts d res log stage acq good origin =>
      have hb : ((plan cfg env k old n0).numbered (plan cfg env k old n0).next).built = (plan cfg env k old n0).built := by
        unfold Plan.numbered
        rw [res]
      exact .ok pre (by rw [hb]; exact acts) d res log stage (by rw [hb]; exact acq) (by rw [hb]; exact good) (by rw [hb]; exact origin)
    | noop acts d res built =>
      have hb : ((plan cfg env k old n0).numbered (plan cfg env k old n0).next).built = (plan cfg env k old n0).built := by
        unfold Plan.numbered
        rw [res]
      exact .noop acts d res (by rw [hb]; exact built)
  · obtain ⟨_, pos, l, _, _, _, hx⟩ := cut_plan hcfg lg k hgood hc
    obtain ⟨rel, ha, hp, hn⟩ := hx.acts
    have hlog : Log old n0 (plan cfg env k old n0).next ((plan cfg env k old n0).acts.take pos) := by
      cases hs with
      | failed pre rel acts res log stage acq nodup built origin => exact log.sublist (take_early acts (stage_release rel) hx.early)
      | ok pre acts d res log stage acq good origin => exact log.sublist (take_early acts stage_tail hx.early)
      | noop acts d res built =>
        have := List.sublist_nil.mp (take_early (pre := []) (tail := countActs k) (by rw [acts]; rfl) stage_count hx.early)
        rw [this]
        exact ⟨by simp, by simp [HooksIncr], by simp, by simp, by simp⟩
    have hb : ((planL lg cfg env k old n0).plan.numbered (plan cfg env k old n0).next).built = noManager := by
      unfold Plan.numbered
      rw [hx.res]
    refine .failed _ rel ha ?_ hlog (fun a h => Nat.le_trans (hx.early a h) (by decide)) hp hn (.inl (by rw [hb]; rfl)) (by rw [hb]; exact origin_none)
    intro d hd
    change (planL lg cfg env k old n0).plan.res = _ at hd
    rw [hx.res] at hd; cases hd

/-! ### The state to compare with -/

/-- The same state with another history of the calls of `OnFree`. -/
def Machine.shade (m : Machine) (tr : History) (o : Nat → Bool) : Machine := { m with trace := tr, once := o }

structure Shadow (Z : List Nat) (m : Machine) (tr : History) (o : Nat → Bool) : Prop where
  once : ∀ i, o i = (m.once i || decide (i ∈ Z))
  regs : (m.shade tr o).regs = m.regs
  begins : (m.shade tr o).begins.Perm (m.begins ++ Z)
  ends : (m.shade tr o).ends.Perm (m.ends ++ Z)
  acts : lastCallActs tr = lastCallActs m.trace

section
variable {Z : List Nat} {m m' : Machine} {tr : History} {o : Nat → Bool}

theorem Shadow.of (h : Shadow Z m tr o) (ht : m'.trace = m.trace) (ho : m'.once = m.once) : Shadow Z m' tr o :=
  ⟨by rw [ho]; exact h.once, by rw [regs_congr ht, ← h.regs]; rfl, by rw [begins_congr ht]; exact h.begins, by rw [ends_congr ht]; exact h.ends, by rw [ht]; exact h.acts⟩

omit [GoRuntime] in
theorem perm_mid (a z b : List Nat) : ((a ++ z) ++ b).Perm ((a ++ b) ++ z) := by
  rw [List.append_assoc, List.append_assoc]
  exact List.Perm.append_left _ List.perm_append_comm

/-- An event that happens in both states. -/
theorem Shadow.log (h : Shadow Z m tr o) (e : Ev) (ht : m'.trace = m.trace ++ [(m.now, e)]) (ho : m'.once = m.once) : Shadow Z m' (tr ++ [(m.now, e)]) o := by
  have ht' : m'.trace = (m.log e).trace := ht
  refine Shadow.of (m := m.log e) ⟨h.once, ?_, ?_, ?_, ?_⟩ ht' ho
  · change ((m.shade tr o).log e).regs = _
    rw [regs_log, regs_log, h.regs]
  · change ((m.shade tr o).log e).begins.Perm _
    rw [begins_log, begins_log]
    exact (h.begins.append_right _).trans (perm_mid ..)
  · change ((m.shade tr o).log e).ends.Perm _
    rw [ends_log, ends_log]
    exact (h.ends.append_right _).trans (perm_mid ..)
  · have := lastCallActs_log tr m.now e
    have := lastCallActs_log m.trace m.now e
    change lastCallActs (tr ++ [(m.now, e)]) = lastCallActs (m.trace ++ [(m.now, e)])
    rw [lastCallActs_log, lastCallActs_log, h.acts]

/-- `OnFree` begins in both states. -/
theorem Shadow.begin (h : Shadow Z m tr o) (i : Nat) (ht : m'.trace = m.trace ++ [(m.now, .freeBegin i)]) (ho : m'.once = upd m.once i true) :
    Shadow Z m' (tr ++ [(m.now, Ev.freeBegin i)]) (upd o i true) := by
  have h1 := h.log (m' := m.log (.freeBegin i)) (.freeBegin i) rfl rfl
  refine Shadow.of (m := { m.log (.freeBegin i) with once := upd m.once i true }) ⟨?_, h1.regs, h1.begins, h1.ends, h1.acts⟩ ht ho
  intro j
  change upd o i true j = (upd m.once i true j || decide (j ∈ Z))
  unfold upd
  split
  · rfl
  · exact h.once j

/-- `OnFree` is called only in the other state. -/
theorem Shadow.mute (h : Shadow Z m tr o) (i : Nat) (ht : m'.trace = m.trace) (ho : m'.once = m.once) :
    Shadow (i :: Z) m' ((tr ++ [(m.now, Ev.freeBegin i)]) ++ [(m.now, .freeEnd i)]) (upd o i true) := by
  refine Shadow.of (m := m) ⟨?_, ?_, ?_, ?_, ?_⟩ ht ho
  · intro j
    have := h.once j
    unfold upd
    by_cases hj : j = i
    · subst hj; simp
    · rw [if_neg hj, this]; simp [hj]
  · change (((m.shade tr o).log (.freeBegin i)).log (.freeEnd i)).regs = _
    rw [regs_log, regs_log]
    simp [h.regs]
  · change (((m.shade tr o).log (.freeBegin i)).log (.freeEnd i)).begins.Perm _
    rw [begins_log, begins_log]
    simp only [List.append_nil]
    refine (h.begins.append_right _).trans ?_
    rw [List.append_assoc]
    exact List.Perm.append_left _ List.perm_append_comm
  · change (((m.shade tr o).log (.freeBegin i)).log (.freeEnd i)).ends.Perm _
    rw [ends_log, ends_log]
    simp only [List.append_nil]
    refine (h.ends.append_right _).trans ?_
    rw [List.append_assoc]
    exact List.Perm.append_left _ List.perm_append_comm
  · rw [lastCallActs_log, lastCallActs_log, h.acts]

/-- A step in which the logger does not panic is a step of the other state. -/
theorem Shadow.step {cfg : Config} {l : XLabel} (h : Shadow Z m tr o) (hz : ∀ i ∈ m.zs, o i = false) (hs : XStep cfg m l m') :
    ∃ tr' o', XStep cfg (m.shade tr o) l (m'.shade tr' o') ∧ Shadow Z m' tr' o' ∧ (m.shade tr o).loses l = m.loses l := by
  have used : ∀ {i}, i ∈ m.zs → m.once i = true → False := fun hi ho => by
    have := hz _ hi
    rw [h.once, ho] at this
    cases this
  cases hs with
  | go l m' hs =>
    cases hs with
    | refused k env hr => exact ⟨tr ++ [(m.now, Ev.refused)], o, .go _ _ (.refused (m := m.shade tr o) k env hr), h.log _ rfl rfl, rfl⟩
    | call k env hr run => exact ⟨tr ++ [(m.now, Ev.called k)], o, .go _ _ (.call (m := m.shade tr o) k env hr run), h.log _ rfl rfl, rfl⟩
    | act r a rest run phase todo plain =>
      refine ⟨tr ++ [(m.now, Ev.act a)], o, .go _ _ ?_, h.log (.act a) ?_ ?_, rfl⟩
      · have hx : Step cfg (m.shade tr o) .act _ := .act (m := m.shade tr o) r a rest run phase todo plain
        cases a <;> exact hx
      · exact perform_trace'
      · cases a <;> rfl
    | release r i rest run phase todo => exact ⟨tr ++ [(m.now, Ev.act (.release i))], o, .go _ _ (.release (m := m.shade tr o) r i rest run phase todo), h.log _ rfl rfl, rfl⟩
    | runSkip r i run phase once => exact (used (mem_zs_run run phase) once).elim
    | runBegin r i run phase once =>
      exact ⟨tr ++ [(m.now, Ev.freeBegin i)], upd o i true, .go _ _ (.runBegin (m := m.shade tr o) r i run phase (hz i (mem_zs_run run phase))), h.begin i rfl rfl, rfl⟩
    | runEnd r i run phase => exact ⟨tr ++ [(m.now, Ev.freeEnd i)], o, .go _ _ (.runEnd (m := m.shade tr o) r i run phase), h.log _ rfl rfl, rfl⟩
    | ret r run todo phase => exact ⟨tr ++ [(m.now, Ev.returned r.kind r.res)], o, .go _ _ (.ret (m := m.shade tr o) r run todo phase), h.log _ rfl rfl, rfl⟩
    | freeDec t x y frees phase i rest todo due => exact ⟨tr, o, .go _ _ (.freeDec (m := m.shade tr o) t x y frees phase i rest todo due), h.of rfl rfl, rfl⟩
    | freeSkip t x y frees i phase once => exact (used (mem_zs_free (t := t) (by rw [frees]; simp) phase) once).elim
    | freeBegin t x y frees i phase once =>
      exact ⟨tr ++ [(m.now, Ev.freeBegin i)], upd o i true, .go _ _ (.freeBegin (m := m.shade tr o) t x y frees i phase (hz i (mem_zs_free (t := t) (by rw [frees]; simp) phase))), h.begin i rfl rfl, rfl⟩
    | freeEnd t x y frees i phase => exact ⟨tr ++ [(m.now, Ev.freeEnd i)], o, .go _ _ (.freeEnd (m := m.shade tr o) t x y frees i phase), h.log _ rfl rfl, rfl⟩
    | tick d => exact ⟨tr, o, .go _ _ (.tick (m := m.shade tr o) d), h.of rfl rfl, rfl⟩
    | read => exact ⟨tr ++ [(m.now, Ev.observed (m.current.map (·.mid)))], o, .go _ _ (.read (m := m.shade tr o)), h.log _ rfl rfl, rfl⟩
    | readCounter => exact ⟨tr ++ [(m.now, Ev.counted m.counter)], o, .go _ _ (.readCounter (m := m.shade tr o)), h.log _ rfl rfl, rfl⟩
  | hook r a rest run phase todo may => exact ⟨tr ++ [(m.now, Ev.act a)], o, .hook (m := m.shade tr o) r a rest run phase todo may, h.log _ rfl rfl, congrArg owed h.acts⟩
  | cleanup r i run phase => exact ⟨tr ++ [(m.now, Ev.freeEnd i)], o, .cleanup (m := m.shade tr o) r i run phase, h.log _ rfl rfl, congrArg owed h.acts⟩
  | free t x y frees i phase => exact ⟨tr ++ [(m.now, Ev.freeEnd i)], o, .free (m := m.shade tr o) t x y frees i phase, h.log _ rfl rfl, rfl⟩

end

/-! ### The invariant -/

/-- The steps, one case each. -/
inductive YStep (cfg : Config) (m : Machine) : YLabel → Machine → Prop
  | go (l : XLabel) (m' : Machine) (h : XStep cfg m l m') : YStep cfg m (.go l) m'
  | refused (k : Kind) (env : Env) (lg : Logger) : YStep cfg m (.callLog k env lg) (m.log .refused)
  | call (k : Kind) (env : Env) (lg : Logger) (h : Hotswap.refused cfg k = false) (run : m.running = none) :
      YStep cfg m (.callLog k env lg) (m.start k ((planL lg cfg env k m.current m.next).plan.numbered (plan cfg env k m.current m.next).next))
  | muteCall (r : Running) (i : Nat) (run : m.running = some r) (phase : r.phase = .zero i) : YStep cfg m .muteCall { m with running := some { r with phase := .idle } }
  | muteFree (t : FreeTask) (x y : List FreeTask) (frees : m.frees = x ++ t :: y) (i : Nat) (phase : t.phase = .zero i) :
      YStep cfg m (.muteFree x.length) { m with frees := x ++ { t with phase := .idle } :: y }
  | escapeZero (r : Running) (i : Nat) (run : m.running = some r) (phase : r.phase = .zero i) : YStep cfg m .escape (m.drop r)
  | escapeInside (r : Running) (i : Nat) (run : m.running = some r) (phase : r.phase = .inside i) : YStep cfg m .escape ((m.onFreeDone i).drop r)

theorem ystep_view {cfg : Config} {m m' : Machine} {l : YLabel} (h : m.ystep cfg l = some m') : YStep cfg m l m' := by
  cases l with
  | go l => exact .go l m' (xstep_view h)
  | callLog k env lg =>
    change m.callLog cfg k env lg = some m' at h
    unfold Machine.callLog at h
    split at h
    · cases h; exact .refused k env lg
    · rename_i hk
      cases hr : m.running with
      | some r => rw [hr] at h; cases h
      | none => rw [hr] at h; cases h; exact .call k env lg (by simpa using hk) hr
  | muteCall =>
    change m.muteCall = some m' at h
    unfold Machine.muteCall at h
    cases hr : m.running with
    | none => rw [hr] at h; cases h
    | some r =>
      rw [hr] at h
      simp only at h
      cases hp : r.phase with
      | zero i => rw [hp] at h; cases h; exact .muteCall r i hr hp
      | inside i => rw [hp] at h; cases h
      | idle => rw [hp] at h; cases h
  | muteFree n =>
    change m.muteFree n = some m' at h
    unfold Machine.muteFree at h
    cases hf : m.frees[n]? with
    | none => rw [hf] at h; cases h
    | some t =>
      rw [hf] at h
      simp only at h
      obtain ⟨x, y, he, rfl, hs⟩ := split_at hf
      cases hp : t.phase with
      | zero i => rw [hp] at h; simp only at h; cases h; rw [hs]; exact .muteFree t x y he i hp
      | _ => rw [hp] at h; cases h
  | escape =>
    change m.escape = some m' at h
    unfold Machine.escape at h
    cases hr : m.running with
    | none => rw [hr] at h; cases h
    | some r =>
      rw [hr] at h
      simp only at h
      cases hp : r.phase with
      | zero i => rw [hp] at h; cases h; exact .escapeZero r i hr hp
      | inside i => rw [hp] at h; cases h; exact .escapeInside r i hr hp
      | idle => rw [hp] at h; cases h

def YInv (cfg : Config) (m : Machine) (L Z : List Nat) : Prop := ∃ tr o, Shadow Z m tr o ∧ XInv cfg (m.shade tr o) L

theorem YInv.step {cfg : Config} (hcfg : cfg.OK) {m m' : Machine} {L Z : List Nat} {l : YLabel} (h : YInv cfg m L Z) (hs : YStep cfg m l m') : YInv cfg m' (m.yLoses l ++ L) (m.yMutes l ++ Z) := by
  obtain ⟨tr, o, hsh, hx⟩ := h
  have hz : ∀ i ∈ m.zs, o i = false := fun i hi => hx.inv.once_zero hi
  cases hs with
  | go l m' hs =>
    obtain ⟨tr', o', h1, h2, h3⟩ := hsh.step hz hs
    have := hx.step hcfg h1
    rw [h3] at this
    exact ⟨tr', o', h2, this⟩
  | refused k env lg =>
    refine ⟨tr ++ [(m.now, Ev.refused)], o, hsh.log _ rfl rfl, ?_⟩
    refine ⟨hx.inv.silent ?_ ?_ ?_ rfl rfl rfl rfl rfl rfl rfl rfl rfl, hx.lost, fun r hr => (hx.call r hr).silent (lastCallActs_log _ _ _) rfl rfl rfl rfl⟩
    · change ((m.shade tr o).log .refused).regs = _; rw [regs_log]; simp
    · change ((m.shade tr o).log .refused).begins = _; rw [begins_log]; simp
    · change ((m.shade tr o).log .refused).ends = _; rw [ends_log]; simp
  | call k env lg hk run =>
    have hgood : ∀ om, m.current = some om → SoundManager m.next om := fun om ho => (hx.inv.cur om ho).1
    have hshape := shape_log hcfg (env := env) lg hk hgood
    refine ⟨tr ++ [(m.now, Ev.called k)], o, Shadow.log (m' := m.start k _) hsh (.called k) rfl rfl, ?_, hx.lost, ?_⟩
    · exact hx.inv.callPlan (m := m.shade tr o) hshape (plan_view (env := env) (k := k) hcfg hgood).next_le run
    · intro r hr
      cases hr
      exact CallAt.start (m := m.shade tr o) _ hshape
  | muteCall r i run phase =>
    have hm : m.yMutes .muteCall = [i] := by simp [Machine.yMutes, run, phase, Phase.due]
    rw [hm]
    refine ⟨_, _, hsh.mute i rfl rfl, ?_⟩
    have h1 := hx.step hcfg (.go _ _ (.runBegin (m := m.shade tr o) r i run phase (hz i (mem_zs_run run phase))))
    exact h1.step hcfg (.go _ _ (.runEnd { r with phase := .inside i } i rfl rfl))
  | muteFree t x y frees i phase =>
    have hm : m.yMutes (.muteFree x.length) = [i] := by simp [Machine.yMutes, frees, phase, Phase.due]
    rw [hm]
    refine ⟨_, _, hsh.mute i rfl rfl, ?_⟩
    have h1 := hx.step hcfg (.go _ _ (.freeBegin (m := m.shade tr o) t x y frees i phase (hz i (mem_zs_free (t := t) (by rw [frees]; simp) phase))))
    exact h1.step hcfg (.go _ _ (.freeEnd { t with phase := .inside i } x y rfl i rfl))
  | escapeZero r i run phase =>
    have hm : m.yMutes .escape = [i] := by simp [Machine.yMutes, run, phase, Phase.due]
    rw [hm]
    refine ⟨_, _, hsh.mute i rfl rfl, ?_⟩
    have h1 := hx.step hcfg (.go _ _ (.runBegin (m := m.shade tr o) r i run phase (hz i (mem_zs_run run phase))))
    have h2 := h1.step hcfg (.cleanup { r with phase := .inside i } i rfl rfl)
    have hl : owed (lastCallActs m.trace) = owed (lastCallActs (tr ++ [(m.now, Ev.freeBegin i)])) := by rw [lastCallActs_log, hsh.acts]
    change XInv cfg _ (owed (lastCallActs m.trace) ++ L)
    rw [hl]
    exact h2
  | escapeInside r i run phase =>
    have hm : m.yMutes .escape = [] := by simp [Machine.yMutes, run, phase, Phase.due]
    rw [hm]
    refine ⟨tr ++ [(m.now, Ev.freeEnd i)], o, Shadow.log (m' := (m.onFreeDone i).drop r) hsh (.freeEnd i) rfl rfl, ?_⟩
    have h2 := hx.step hcfg (.cleanup (m := m.shade tr o) r i run phase)
    change XInv cfg _ (owed (lastCallActs m.trace) ++ L)
    rw [← hsh.acts]
    exact h2

theorem yinv {cfg : Config} (hcfg : cfg.OK) {m : Machine} {L Z : List Nat} (h : YReachable cfg m L Z) : YInv cfg m L Z := by
  induction h with
  | init => exact ⟨[], fun _ => false, ⟨by simp [Machine.init], rfl, List.Perm.refl _, List.Perm.refl _, rfl⟩, InvL.init cfg, fun i => by simp, by intro r hr; cases hr⟩
  | step l _ hs ih => exact ih.step hcfg (ystep_view hs)

end Hotswap
