import Verif.Proofs.LogCall
import Verif.Proofs.Views
import Verif.Proofs.Unprintable

/-! The log of a call in a reachable state. -/

namespace Hotswap

variable [GoRuntime]

/-- The line about the files, or nothing; the line about static linking, or only lines about hooks. -/
def CallLog (cfg : Config) (env : Env) (k : Kind) (old : Option Manager) (lg : Logger) (s : LogSt) : Prop :=
  (cfg.static = none ∨ k ≠ .load → DynLog cfg env old s) ∧ (cfg.static ≠ none → k = .load → lg = quiet → StaticLog s)

theorem call_end {cfg : Config} (hcfg : cfg.OK) {env : Env} {n0 : Nat} (lg : Logger) (k : Kind) {old : Option Manager} (hgood : ∀ om, old = some om → SoundManager n0 om) :
    CallEnd env.it lg (CallLog cfg env k old lg) (callL lg cfg env k old (logStart n0)) := by
  cases k with
  | load =>
    unfold callL apiLoadL
    cases hst : cfg.static with
    | some sps =>
      obtain ⟨h1, h2, h3⟩ := static_end (cfg := cfg) (env := env) (n0 := n0) lg (callbacks cfg env .load) (hcfg sps hst)
      exact ⟨h1, h2, fun h => by rcases h with h | h <;> simp_all, fun _ _ hq => h3 hq⟩
    | none =>
      obtain ⟨h1, h2, h3⟩ := impl_end (cfg := cfg) (env := env) (n0 := n0) lg (callbacks cfg env .load) hgood
      exact ⟨h1, h2, fun _ => h3, fun h => absurd hst h⟩
  | reload extra =>
    obtain ⟨h1, h2, h3⟩ := reload_end (cfg := cfg) (env := env) (n0 := n0) lg extra hgood
    exact ⟨h1, h2, fun _ => h3, fun _ h => by cases h⟩

theorem View.built_nodup {cfg : Config} {env : Env} {k : Kind} {old : Option Manager} {n0 : Nat} {p : Plan} (h : View cfg env k old n0 p) : p.built.insts.Nodup := by
  have nothing : noManager.insts.Nodup := by simp [noManager, newManager, Manager.insts, GoMap.vals, GoMap.empty]
  cases h with
  | listErr e dyn why acts res next built => rw [built]; exact nothing
  | empty absDir entries dyn dir wl none acts res next built => rw [built]; exact nothing
  | escaped ext panics acts res next built => rw [built]; exact nothing
  | dynErr absDir entries dyn dir wl some s0 sb f cr failed body acts res next built => rw [built]; exact body.nodup
  | dynCb absDir entries dyn dir wl some s0 s1 s cr done cbs n o rest split bad good acts res next built => rw [built]; exact done.body.nodup
  | dynOk absDir entries dyn dir wl some s0 s1 s d cr done good details acts res next built => rw [built]; exact done.body.nodup
  | staticMissing sps e st kl sel acts res next built => unfold Manager.insts; rw [built.2]; simp [GoMap.vals, GoMap.empty]
  | staticErr sps sel st kl hsel s0 sb f cr failed body acts res next built => rw [built]; exact body.nodup
  | staticCb sps sel st kl hsel s0 s1 s cr done cbs n o rest split bad good acts res next built => rw [built]; exact done.body.nodup
  | staticOk sps sel st kl hsel s0 s1 s d cr done good details acts res next built => rw [built]; exact done.body.nodup

theorem Releasable.order_perm {pm : Manager} (h : Releasable pm) (it : Iter) : (freeOrder it pm).Perm pm.pluginMap.vals := by
  unfold freeOrder
  split
  · exact GoMap.rangeKV_vals_perm it .free pm.pluginMap
  · rcases h.order with ho | ho
    · contradiction
    · exact (List.reverse_perm _).trans ho

theorem Releasable.insts_perm {pm : Manager} (h : Releasable pm) (it : Iter) : ((freeOrder it pm).map (·.inst)).Perm pm.insts := (h.order_perm it).map (fun p : Plugin => p.inst)

theorem Releasable.order_nodup {pm : Manager} (h : Releasable pm) (it : Iter) : ((freeOrder it pm).map (·.inst)).Nodup ∧ ((freeOrder it pm).map (·.name)).Nodup := by
  have hp := h.order_perm it
  refine ⟨(h.insts_perm it).symm.nodup h.nodup, ?_⟩
  have h1 : (pm.pluginMap.vals.map (fun p => name2key p.name)).Nodup := by rw [vals_nodupKeys h.keyed]; exact pm.pluginMap.nodup
  have h2 : (pm.pluginMap.vals.map (·.name)).Nodup := by
    rw [show (fun p : Plugin => name2key p.name) = name2key ∘ (·.name) from rfl, ← List.map_map] at h1
    exact List.Nodup.of_map _ h1
  exact (hp.map (fun p : Plugin => p.name)).symm.nodup h2

/-- There are names. -/
theorem names_exist {pm : Manager} (h : pm.insts.Nodup) : ∃ nm, NamesOf nm pm := by
  refine ⟨fun i => ((pm.pluginMap.vals.find? (fun p => p.inst == i)).map (·.name)).getD [], fun p hp => ?_⟩
  unfold Manager.insts at h
  have key : ∀ l : List Plugin, (l.map (·.inst)).Nodup → p ∈ l → l.find? (fun q => q.inst == p.inst) = some p := by
    intro l
    induction l with
    | nil => intro _ h; cases h
    | cons q r ih =>
      intro hn hm
      rw [List.map_cons, List.nodup_cons] at hn
      rcases List.mem_cons.mp hm with rfl | hm
      · simp
      · rw [List.find?_cons_of_neg]
        · exact ih hn.2 hm
        · intro he
          exact hn.1 (List.mem_map.mpr ⟨p, hm, (beq_iff_eq.mp he).symm⟩)
  simp [key _ h hp]

/-- What the calls with and without the logger have in common. -/
theorem planL_rel (lg : Logger) (cfg : Config) (env : Env) (k : Kind) (old : Option Manager) (n0 : Nat) :
    (planL quiet cfg env k old n0).plan.asRun = (plan cfg env k old n0).asRun ∧
    ((planL lg cfg env k old n0).plan.asRun = (plan cfg env k old n0).asRun ∧ (planL lg cfg env k old n0).lines = (planL quiet cfg env k old n0).lines ∧
      (∀ i, i < (planL quiet cfg env k old n0).lines.length → lg i = false) ∨
    Cut lg (afterBody env.it) 0 (callL lg cfg env k old (logStart n0)) (callL quiet cfg env k old (logStart n0))) := by
  have he := erases_call cfg env k old (logStart n0)
  obtain ⟨h1, h2⟩ := planL_eq_call lg cfg env k old n0
  obtain ⟨h3, h4⟩ := planL_eq_call quiet cfg env k old n0
  have h5 := plan_eq_call cfg env k old n0
  refine ⟨by rw [h3, h5, he], ?_⟩
  rcases (follows_call (lg := lg) cfg env k old).rel (logStart n0) with ⟨h6, h7⟩ | h6
  · refine .inl ⟨by rw [h1, h6, h5, he], by rw [h2, h4, h6], fun i hi => h7 i (Nat.zero_le _) (by rw [← h4]; exact hi)⟩
  · exact .inr h6

/-- The same list of released plugins. -/
theorem clean_of_same (it : Iter) {s s' : LoadSt} (h : Clean it s) (e : (invokeEveryOnFree it s').2 = (invokeEveryOnFree it s).2) : Clean it s' := by
  have hpm : (invokeEveryOnFree it s').2.pm = (invokeEveryOnFree it s).2.pm := congrArg LoadSt.pm e
  change s'.pm = s.pm at hpm
  have ha : (invokeEveryOnFree it s').2.acts = (invokeEveryOnFree it s).2.acts := congrArg LoadSt.acts e
  rw [emits_free_only, emits_free_only] at ha
  rw [hpm] at ha
  have := List.append_cancel_right ha
  unfold Clean at h ⊢
  rw [hpm, this]
  exact h

/-- A logger that panics cuts the call. -/
theorem cut_plan {cfg : Config} (hcfg : cfg.OK) {env : Env} {n0 : Nat} (lg : Logger) (k : Kind) {old : Option Manager} (hgood : ∀ om, old = some om → SoundManager n0 om)
    (h : Cut lg (afterBody env.it) 0 (callL lg cfg env k old (logStart n0)) (callL quiet cfg env k old (logStart n0))) :
    ∃ n pos l, PanicsFirst lg n ∧ (planL quiet cfg env k old n0).lines[n]? = some (pos, l) ∧
      (planL lg cfg env k old n0).lines = (planL quiet cfg env k old n0).lines.take (n + 1) ∧
      CutAt (plan cfg env k old n0) pos l (planL lg cfg env k old n0).plan := by
  obtain ⟨n, pos, l, f, cs, _, h2, h3, h4, h5, h6, h7, h8, h9, h10⟩ := h
  subst h9
  have hb := (call_end hcfg (env := env) lg k hgood).cut l h6
  obtain ⟨cs', hc, hcs⟩ := hb
  have hclean : Clean env.it cs := clean_of_same env.it hc (by rw [← hcs, h10])
  obtain ⟨⟨rel, hr1, hr2, hr3, _⟩, hst⟩ := hclean
  obtain ⟨g1, g2⟩ := planL_eq_call lg cfg env k old n0
  obtain ⟨_, g4⟩ := planL_eq_call quiet cfg env k old n0
  have g5 := plan_eq_call cfg env k old n0
  have he := erases_call cfg env k old (logStart n0)
  have hacts : (plan cfg env k old n0).acts = (callL quiet cfg env k old (logStart n0)).2.st.acts := by
    have := congrArg (·.2.acts) g5
    rw [← he] at this
    exact this
  refine ⟨n, pos, l, ⟨h2, fun i hi => h3 i (Nat.zero_le _) hi⟩, by rw [g4]; exact h4, by rw [g2, g4]; exact h5, ?_, by rw [hacts]; exact h7, ?_, ?_⟩
  · have := congrArg (·.1) g1
    change (planL lg cfg env k old n0).plan.res = _ at this
    rw [this]
    exact h6
  · have := congrArg (·.2.acts) g1
    change (planL lg cfg env k old n0).plan.acts = _ at this
    refine ⟨rel, ?_, ?_, hr3⟩
    · rw [this]
      change (callL lg cfg env k old (logStart n0)).2.st.acts = _
      rw [h10, emits_free_only, hr1, h8, hacts]
    · rw [hacts, ← h8]; exact hr2
  · rw [hacts, ← h8]; exact hst

end Hotswap
