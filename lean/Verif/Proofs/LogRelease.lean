import Verif.Model.LogRelease
import Verif.Proofs.LogPlan
import Verif.Proofs.FreeLog
import Verif.Props.Hostile
import Verif.Props.Unprintable

/-! The end of a call that fails. -/

namespace Hotswap

variable [GoRuntime]

/-- What is true of the actions of a call. -/
structure Takes (old : Option Manager) (n0 : Nat) (l : List Act) : Prop where
  incs : ∀ i, Act.inc i ∈ l → ∃ om, old = some om ∧ i ∈ om.insts
  regs : ∀ i, Act.register i ∈ l → n0 ≤ i

omit [GoRuntime] in
theorem Takes.append {old : Option Manager} {n0 : Nat} {l r : List Act} (h : Takes old n0 l) (hr : ∀ a ∈ r, 6 ≤ a.stage) : Takes old n0 (l ++ r) := by
  refine ⟨fun i hi => ?_, fun i hi => ?_⟩
  · rcases List.mem_append.mp hi with hi | hi
    · exact h.incs i hi
    · have := hr _ hi; simp [Act.stage] at this
  · rcases List.mem_append.mp hi with hi | hi
    · exact h.regs i hi
    · have := hr _ hi; simp [Act.stage] at this

omit [GoRuntime] in
theorem Takes.of_late {old : Option Manager} {n0 : Nat} {l : List Act} (h : ∀ a ∈ l, 6 ≤ a.stage) : Takes old n0 l :=
  Takes.append (l := []) ⟨by simp, by simp⟩ h

theorem BodyLog.takes {old : Option Manager} {n0 : Nat} {s : LoadSt} (h : BodyLog old n0 s) : Takes old n0 s.acts := ⟨h.log.incs, fun i hi => (h.log.regs i hi).1⟩

theorem BodyLog.takes' {old : Option Manager} {n0 : Nat} {s : LoadSt} (h : BodyLog none n0 s) : Takes old n0 s.acts :=
  ⟨fun i hi => (by obtain ⟨om, ho, _⟩ := h.log.incs i hi; cases ho), fun i hi => (h.log.regs i hi).1⟩

theorem late_cleanup (it : Iter) (pm : Manager) : ∀ a ∈ cleanupActs it pm, 6 ≤ a.stage := by
  intro a ha; obtain ⟨p, _, rfl⟩ := List.mem_map.mp ha; simp [Act.stage]

theorem late_cb (n : Nat) (o : Option Nat) (l : List (Nat × Outcome)) : ∀ a ∈ cbActs n o l, 6 ≤ a.stage := by
  intro a ha; exact Nat.le_of_eq (mem_cbActs ha).symm

theorem late_count (k : Kind) : ∀ a ∈ countActs k, 6 ≤ a.stage := by cases k <;> simp [countActs, Act.stage]

theorem late_spawn (o : Option Manager) : ∀ a ∈ spawnActs o, 6 ≤ a.stage := by cases o <;> simp [spawnActs, Act.stage]

theorem View.takes {cfg : Config} {env : Env} {k : Kind} {old : Option Manager} {n0 : Nat} {p : Plan} (h : View cfg env k old n0 p) : Takes old n0 p.acts := by
  cases h with
  | listErr e dyn why acts res next built => rw [acts]; exact .of_late (by simp)
  | empty absDir entries dyn dir wl none acts res next built => rw [acts]; exact .of_late (late_count k)
  | escaped ext panics acts res next built => rw [acts]; exact .of_late (by simp)
  | dynErr absDir entries dyn dir wl some s0 sb f cr failed body acts res next built => rw [acts]; exact body.takes.append (late_cleanup _ _)
  | dynCb absDir entries dyn dir wl some s0 s1 s cr done cbs n o rest split bad good acts res next built =>
    rw [acts]; exact (done.body.takes.append (late_cb _ _ _)).append (late_cleanup _ _)
  | dynOk absDir entries dyn dir wl some s0 s1 s d cr done good details acts res next built =>
    rw [acts]
    refine (done.body.takes.append (late_cb _ _ _)).append (fun a ha => ?_)
    rcases List.mem_append.mp ha with ha | ha
    · exact late_spawn old a ha
    · rcases List.mem_cons.mp ha with rfl | ha
      · simp [Act.stage]
      · exact late_count k a ha
  | staticMissing sps e st kl sel acts res next built => rw [acts]; exact .of_late (by simp)
  | staticErr sps sel st kl hsel s0 sb f cr failed body acts res next built => rw [acts]; exact body.takes'.append (late_cleanup _ _)
  | staticCb sps sel st kl hsel s0 s1 s cr done cbs n o rest split bad good acts res next built =>
    rw [acts]; exact (done.body.takes'.append (late_cb _ _ _)).append (late_cleanup _ _)
  | staticOk sps sel st kl hsel s0 s1 s d cr done good details acts res next built =>
    rw [acts]; exact (done.body.takes'.append (late_cb _ _ _)).append (by simp [Act.stage])

/-- The end of a call that has failed: the manager is released, and nothing else has been released. -/
structure FailedEnd (it : Iter) (p : Plan) (pre : List Act) : Prop where
  acts : p.acts = pre ++ cleanupActs it p.built
  acq : (acquired pre).Perm p.built.insts
  stage : ∀ a ∈ pre, a.stage ≤ 6
  rel : Releasable p.built

theorem FailedEnd.nothing (it : Iter) {p : Plan} (h : p.acts = []) (hm : p.built.pluginMap = .empty) (ho : p.built.ordered = []) : FailedEnd it p [] := by
  have hr : Releasable p.built := by
    refine ⟨?_, ?_, .inl ho⟩
    · intro k p hp; rw [hm] at hp; cases hp
    · unfold Manager.insts; rw [hm]; simp [GoMap.vals, GoMap.empty]
  have hi : p.built.insts = [] := by unfold Manager.insts; rw [hm]; simp [GoMap.vals, GoMap.empty]
  refine ⟨?_, by rw [hi]; exact List.Perm.refl _, by simp, hr⟩
  have := hr.insts_perm it
  rw [hi] at this
  have h2 := this.eq_nil
  rw [List.map_eq_nil_iff] at h2
  unfold cleanupActs
  rw [h2, h]; rfl

theorem View.failedEnd {cfg : Config} {env : Env} {k : Kind} {old : Option Manager} {n0 : Nat} {p : Plan} (h : View cfg env k old n0 p) {e : Err} (hr : p.res = .err e) :
    ∃ pre, FailedEnd env.it p pre := by
  have ofBody : ∀ {o : Option Manager} {s : LoadSt} {cb : List Act}, BodyLog o n0 s → Keyed s.pm.pluginMap → (∀ a ∈ cb, a.stage = 6) →
      p.acts = s.acts ++ cb ++ cleanupActs env.it s.pm → p.built = s.pm → ∃ pre, FailedEnd env.it p pre := by
    intro o s cb hb hk hcb ha hbuilt
    refine ⟨s.acts ++ cb, by rw [ha, hbuilt], ?_, ?_, by rw [hbuilt]; exact hb.releasable hk⟩
    · rw [acquired_append, acquired_eq_nil (l := cb) (fun a ha => by rw [hcb a ha]; decide), List.append_nil, hbuilt]; exact hb.acq
    · intro a ha
      rcases List.mem_append.mp ha with ha | ha
      · exact Nat.le_trans (hb.stage a ha) (by decide)
      · exact Nat.le_of_eq (hcb a ha)
  cases h with
  | listErr e dyn why acts res next built => exact ⟨[], .nothing _ acts (by rw [built]; rfl) (by rw [built]; rfl)⟩
  | empty absDir entries dyn dir wl none acts res next built => rw [hr] at res; cases res
  | escaped ext panics acts res next built => rw [hr] at res; cases res
  | dynErr absDir entries dyn dir wl some s0 sb f cr failed body acts res next built =>
    refine ofBody (cb := []) body ?_ (by simp) (by simpa using acts) built
    cases failed with
    | early base why => exact base.keyed
    | late s1 done why => exact why.frame.same.keyed done.base.keyed
  | dynCb absDir entries dyn dir wl some s0 s1 s cr done cbs n o rest split bad good acts res next built =>
    exact ofBody done.body done.good.keyed (fun a ha => mem_cbActs ha) acts built
  | dynOk absDir entries dyn dir wl some s0 s1 s d cr done good details acts res next built => rw [hr] at res; cases res
  | staticMissing sps e st kl sel acts res next built => exact ⟨[], .nothing _ acts built.2 built.1⟩
  | staticErr sps sel st kl hsel s0 sb f cr failed body acts res next built =>
    refine ofBody (cb := []) body ?_ (by simp) (by simpa using acts) built
    cases failed with
    | early base why => exact base.keyed
    | late s1 done why => exact why.frame.same.keyed (StaticInv.base done).keyed
  | staticCb sps sel st kl hsel s0 s1 s cr done cbs n o rest split bad good acts res next built =>
    exact ofBody done.body done.good.keyed (fun a ha => mem_cbActs ha) acts built
  | staticOk sps sel st kl hsel s0 s1 s d cr done good details acts res next built => rw [hr] at res; cases res

/-- A call with any logger. -/
theorem failedEnd {cfg : Config} (hcfg : cfg.OK) {env : Env} {n0 : Nat} (lg : Logger) (k : Kind) {old : Option Manager} (hgood : ∀ om, old = some om → SoundManager n0 om)
    {e : Err} (hr : (planL lg cfg env k old n0).plan.res = .err e) :
    ∃ pre, FailedEnd env.it (planL lg cfg env k old n0).plan pre ∧ Takes old n0 pre := by
  have hv := plan_view hcfg (env := env) (k := k) hgood
  rcases (planL_rel lg cfg env k old n0).2 with ⟨h1, _⟩ | hc
  · have hp := plan_ext h1
    rw [hp] at hr ⊢
    obtain ⟨pre, hf⟩ := hv.failedEnd hr
    refine ⟨pre, hf, ?_⟩
    have ht := hv.takes
    rw [hf.acts] at ht
    exact ⟨fun i hi => ht.incs i (List.mem_append_left _ hi), fun i hi => ht.regs i (List.mem_append_left _ hi)⟩
  · obtain ⟨n, pos, l, f, cs, _, h2, h3, h4, h5, h6, h7, h8, h9, h10⟩ := hc
    subst h9
    obtain ⟨cs', hcl, hcs⟩ := (call_end hcfg (env := env) lg k hgood).cut l h6
    have hclean : Clean env.it cs := clean_of_same env.it hcl (by rw [← hcs, h10])
    obtain ⟨⟨rel, hr1, hr2, hr3, hr4⟩, hst⟩ := hclean
    obtain ⟨g1, _⟩ := planL_eq_call lg cfg env k old n0
    have g5 := plan_eq_call cfg env k old n0
    have he := erases_call cfg env k old (logStart n0)
    have hacts : (plan cfg env k old n0).acts = (callL quiet cfg env k old (logStart n0)).2.st.acts := by
      have := congrArg (·.2.acts) g5
      rw [← he] at this
      exact this
    have ha : (planL lg cfg env k old n0).plan.acts = _ := congrArg (·.2.acts) g1
    have hb : (planL lg cfg env k old n0).plan.built = _ := congrArg (·.2.pm) g1
    change _ = (callL lg cfg env k old (logStart n0)).2.st.acts at ha
    change _ = (callL lg cfg env k old (logStart n0)).2.st.pm at hb
    rw [h10] at ha hb
    rw [emits_free_only] at ha
    change _ = cs.pm at hb
    refine ⟨cs.acts, ⟨by rw [ha, hb]; rfl, ?_, fun a h => Nat.le_trans (hst a h) (by decide), by rw [hb]; exact hr4⟩, ?_⟩
    · rw [hb]
      have e1 : (freeOrder env.it cs.pm).map (·.inst) = rel := by
        have := congrArg (List.filterMap (fun a => match a with | Act.release i => some i | _ => none)) hr1
        simpa [List.filterMap_map, Function.comp_def] using this
      rw [← e1] at hr2
      exact hr2.trans (hr4.insts_perm env.it)
    · have ht := hv.takes
      rw [hacts] at ht
      have hm : ∀ a ∈ cs.acts, a ∈ (callL quiet cfg env k old (logStart n0)).2.st.acts := by
        intro a h; rw [h8] at h; exact List.mem_of_mem_take h
      exact ⟨fun i hi => ht.incs i (hm _ hi), fun i hi => ht.regs i (hm _ hi)⟩

/-- The counts before the release. -/
theorem take_counts (l : List Act) (s : FreeSt) (hn : (acquired l).Nodup) (hz : ∀ i, Act.register i ∈ l → s.refs i = 0) :
    (∀ i, (l.foldl FreeSt.take s).refs i = s.refs i + if i ∈ acquired l then 1 else 0) ∧
    (l.foldl FreeSt.take s).used = s.used ∧ (l.foldl FreeSt.take s).called = s.called ∧ (l.foldl FreeSt.take s).lines = s.lines := by
  induction l generalizing s with
  | nil => simp [acquired]
  | cons a r ih =>
    rw [List.foldl_cons]
    have plain : s.take a = s → acquires a = none → (∀ i, (r.foldl FreeSt.take (s.take a)).refs i = s.refs i + if i ∈ acquired (a :: r) then 1 else 0) ∧
        (r.foldl FreeSt.take (s.take a)).used = s.used ∧ (r.foldl FreeSt.take (s.take a)).called = s.called ∧ (r.foldl FreeSt.take (s.take a)).lines = s.lines := fun h1 h2 => by
      have e : acquired (a :: r) = acquired r := by unfold acquired; rw [List.filterMap_cons_none h2]
      rw [h1, e]
      exact ih s (by rw [← e]; exact hn) (fun i hi => hz i (by simp [hi]))
    cases a with
    | register j =>
      have e : acquired (Act.register j :: r) = j :: acquired r := rfl
      rw [e, List.nodup_cons] at hn
      obtain ⟨h1, h2, h3, h4⟩ := ih (s.take (.register j)) hn.2 (fun i hi => by
        have hne : i ≠ j := by
          rintro rfl
          exact hn.1 (List.mem_filterMap.mpr ⟨_, hi, rfl⟩)
        simp only [FreeSt.take, if_neg hne]
        exact hz i (by simp [hi]))
      refine ⟨fun i => ?_, h2, h3, h4⟩
      rw [h1 i, e]
      simp only [FreeSt.take]
      by_cases hij : i = j
      · subst hij
        rw [if_pos rfl, if_neg hn.1, if_pos (by simp), hz i (by simp)]
        rfl
      · rw [if_neg hij]
        simp [hij]
    | inc j =>
      have e : acquired (Act.inc j :: r) = j :: acquired r := rfl
      rw [e, List.nodup_cons] at hn
      obtain ⟨h1, h2, h3, h4⟩ := ih (s.take (.inc j)) hn.2 (fun i hi => by
        have hne : i ≠ j := by
          rintro rfl
          exact hn.1 (List.mem_filterMap.mpr ⟨_, hi, rfl⟩)
        simp only [FreeSt.take, if_neg hne]
        exact hz i (by simp [hi]))
      refine ⟨fun i => ?_, h2, h3, h4⟩
      rw [h1 i, e]
      simp only [FreeSt.take]
      by_cases hij : i = j
      · subst hij
        rw [if_pos rfl, if_neg hn.1, if_pos (by simp)]
        omega
      · rw [if_neg hij]
        simp [hij]
    | _ => exact plain rfl rfl

/-- The counts of a program in which no call is running. -/
theorem idle_counts {cfg : Config} (hcfg : cfg.OK) {m : Machine} {L : List Nat} (h : WReachable cfg m L) (hrun : m.running = none) :
    (∀ i, m.next ≤ i → m.refs i = 0 ∧ m.once i = false) ∧ ∀ i ∈ m.currentInsts, 1 ≤ m.refs i ∧ m.once i = false := by
  obtain ⟨rel, hi⟩ := winv hcfg h
  have hinv := hi.inv
  rw [owing_none hrun] at hinv
  have hc : Core m.refs m.once m.holds m.zs m.ins m.regs m.begins m.ends := hinv.core
  refine ⟨fun i hi => ?_, fun i hi => ?_⟩
  · have hr : i ∉ m.regs := fun hm => by have := hinv.regsLt i (List.mem_append_left _ hm); omega
    refine ⟨?_, ?_⟩
    · rw [hc.refs_eq, List.count_eq_zero_of_not_mem (fun hm => hr (hc.held i hm))]; rfl
    · cases ho : m.once i with
      | false => rfl
      | true => exact absurd (hc.once_ok i ho).1 hr
  · have hh : i ∈ m.holds := by
      unfold Machine.holds Machine.curHeld
      rw [hinv.idle hrun]
      simp [hi]
    refine ⟨?_, ?_⟩
    · rw [hc.refs_eq]
      have := List.count_pos_iff.mpr hh
      omega
    · cases ho : m.once i with
      | false => rfl
      | true => exact absurd hh (hc.once_ok i ho).2

end Hotswap
