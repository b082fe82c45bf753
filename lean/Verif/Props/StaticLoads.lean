import Verif.Props.Determined

/-!
# What decides whether a static load succeeds: C69
-/

namespace Hotswap

section
variable [GoRuntime]

omit [GoRuntime] in
theorem mem_selectedNames {cfg : Config} {sps : GoMap StaticPlugin} {n : Str} : n ∈ selectedNames cfg sps ↔ ∃ sp, Selected cfg sps n sp := by
  unfold selectedNames Selected
  rw [List.mem_filter, GoMap.mem_keys]
  simp only [Bool.or_eq_true, List.isEmpty_iff, List.contains_iff_mem]
  constructor
  · rintro ⟨⟨sp, h⟩, h2⟩; exact ⟨sp, h, h2⟩
  · rintro ⟨sp, h, h2⟩; exact ⟨⟨sp, h⟩, h2⟩

omit [GoRuntime] in
theorem selection_exists {cfg : Config} {sps : GoMap StaticPlugin} (h : ∀ n ∈ cfg.whitelist, sps.get? n ≠ none) : ∃ sel, staticSelection cfg sps = .ok sel := by
  have key : ∀ (l : List Str) (acc : GoMap StaticPlugin), (∀ n ∈ l, sps.get? n ≠ none) → ∃ sel, selectStatic sps l acc = .ok sel := by
    intro l
    induction l with
    | nil => intro acc _; exact ⟨acc, rfl⟩
    | cons a r ih =>
      intro acc h
      unfold selectStatic
      cases ha : sps.get? a with
      | none => exact absurd ha (h a (by simp))
      | some q => exact ih _ (fun n hn => h n (by simp [hn]))
  unfold staticSelection
  split
  · exact ⟨sps, rfl⟩
  · exact key _ _ h

/-- The facts of the later phases, for a static load. -/
theorem late_static {cfg : Config} {sps sel : GoMap StaticPlugin} (hok : StaticOK sps) (hsel : staticSelection cfg sps = .ok sel) {n0 : Nat} {pm0 : Manager} {s1 : LoadSt} {m : GoMap Plugin}
    (done : StaticInv n0 pm0 sel sel.keys s1) (same : SameMap s1.pm.pluginMap m) : Late (StaticOffers sps) none n0 (selectedNames cfg sps) m := by
  have hk : Keyed m := same.keyed done.base.keyed
  have hin : ∀ n sp, Selected cfg sps n sp ↔ sel.get? n = some sp := fun n sp => (staticSelection_ok hsel n sp).symm
  have hnew : ∀ n sp, sel.get? n = some sp → ∃ p, s1.pm.pluginMap.get? (name2key sp.name) = some p ∧ BuiltFromStatic sp p := by
    intro n sp h
    obtain ⟨sp', p, h1, h2, h3⟩ := done.new n (GoMap.mem_keys.mpr ⟨sp, h⟩)
    rw [h] at h1; cases h1
    exact ⟨p, h2, h3⟩
  refine ⟨(fun om h => by cases h), hk, ?_, ?_, ?_, ?_, ?_⟩
  · intro f u v P Q h h'
    cases h with
    | new h h1 h2 =>
      cases h' with
      | new h' h1' h2' =>
        rw [h] at h'; cases h'
        rw [h1] at h1'; cases h1'
        rw [h2] at h2'; cases h2'
        exact ⟨rfl, rfl⟩
  · intro f hf g hg u v P Q hP hQ he
    cases hP with
    | new h =>
      cases hQ with
      | new h' => exact static_key_inj (g := fun sp => name2key sp.name) hok h h' he
  · intro f P h; cases h
  · intro key P hP
    obtain ⟨p, d, b, hp, he, _⟩ := same.get' hP
    obtain ⟨n, hn, sp, hsp, hkey⟩ := done.only key p hp
    obtain ⟨p', hp', hb⟩ := hnew n sp hsp
    rw [hkey, hp] at hp'; cases hp'
    have hs := (hin n sp).mpr hsp
    have hf := hb.faithful
    have ho : StaticOffers sps n p.unchanged { inst := 0, name := sp.name, file := [], sha := 0, note := .ok, unchanged := false, syms := none, code := sp.code, deps := [], exported := p.exported, reloadable := p.reloadable, bound := [] } := by
      rw [hb.changed]
      exact .new hs.1 (by rw [← hb.code]; exact hf.1) (by rw [← hb.code]; exact hf.2)
    refine ⟨n, mem_selectedNames.mpr ⟨sp, hs⟩, _, (by rw [he]; exact ho), ?_⟩
    · rw [he]
      refine ⟨hb.name, hb.code, rfl, rfl, hb.file, hb.sha, fun hu => ?_, fun hu => ?_⟩ <;>
      · change p.unchanged = true at hu
        rw [hb.changed] at hu; cases hu
  · intro f hf u a ha
    obtain ⟨sp, hs⟩ := mem_selectedNames.mp hf
    cases ha with
    | @new sp' r x h h1 h2 =>
      have hsp := hs.1
      rw [h] at hsp
      injection hsp with hsp
      subst hsp
      obtain ⟨p, hp, hb⟩ := hnew f _ ((hin f _).mp hs)
      obtain ⟨d, b, hg⟩ := same.get _ p hp
      refine ⟨_, hg, hb.changed, ⟨hb.name, hb.code, ?_, ?_, hb.file, hb.sha, fun hu => ?_, fun hu => ?_⟩⟩
      · have := hb.faithful.1
        rw [hb.code, h1] at this; cases this; rfl
      · have := hb.faithful.2
        rw [hb.code, h2] at this; cases this; rfl
      all_goals
        change p.unchanged = true at hu
        rw [hb.changed] at hu; cases hu

/-- **C69.** Exactly when `LoadPlugins` in static linking mode publishes a manager: the extension newer does not panic, the selected plugins have no fault (in particular all plugins of the whitelist are linked), and the callback succeeds. -/
theorem C69_static_success_iff {cfg : Config} (hcfg : cfg.OK) {sps : GoMap StaticPlugin} (hst : cfg.static = some sps) {m : Machine} (h : Reachable cfg m) (env : Env)
    (hstable : InitStableBy (StaticOffers sps) (selectedNames cfg sps)) :
    (∃ pm, .publish pm ∈ (plan cfg env .load m.current m.next).acts) ↔
      (cfg.hasNewExt = true → env.ext ≠ .panics) ∧ StaticLoadable cfg sps env.data ∧ (cfg.hasCallback = true → env.cbResult = .ok) := by
  have hok := hcfg sps hst
  have hcb : (∀ c ∈ callbacks cfg env .load, c.2 = .ok) ↔ (cfg.hasCallback = true → env.cbResult = .ok) := by
    unfold callbacks
    cases cfg.hasCallback <;> simp
  have hv := view hcfg h env .load
  constructor
  · rintro ⟨pm, hp⟩
    obtain ⟨sel, s0, s1, s, d, hsel, cr, done, hdet, hres, rfl⟩ := hv.static hst rfl hp
    have hlate := late_static hok hsel done.stage1 done.fin.frame.same
    have hlinked : ∀ n ∈ cfg.whitelist, sps.get? n ≠ none := by
      intro n hn hnone
      exact (C31_static_missing hcfg hst h env hn hnone).2 d hres
    refine ⟨?_, ⟨hlate.fits done.fin done.good hstable, hlinked, ?_⟩, ?_⟩
    · intro he hx
      have := cr.ext
      rw [if_pos he, hx] at this; cases this
    · intro n sp hs
      have hget := (staticSelection_ok hsel n sp).mpr hs
      obtain ⟨sp', p, h1, h2, h3⟩ := done.stage1.new n (GoMap.mem_keys.mpr ⟨sp, hget⟩)
      rw [hget] at h1; cases h1
      refine ⟨?_, ⟨_, by rw [← h3.code]; exact h3.faithful.1⟩, ⟨_, by rw [← h3.code]; exact h3.faithful.2⟩⟩
      intro sym hsym
      cases hm : sp.missing sym with
      | false => rfl
      | true =>
        have hc := h3.complete
        unfold staticMissing at hc
        rw [List.filter_eq_nil_iff] at hc
        exact absurd hm (hc sym hsym)
    · rw [← hcb]
      generalize plan cfg env .load m.current m.next = p at *
      have hdyn : cfg.static = none ∨ Kind.load ≠ .load → False := by
        rintro (h | h)
        · rw [hst] at h; cases h
        · exact h rfl
      cases hv with
      | listErr e dyn => exact (hdyn dyn).elim
      | empty a b dyn => exact (hdyn dyn).elim
      | escaped ext panics acts res => rw [res] at hres; cases hres
      | dynErr a b dyn => exact (hdyn dyn).elim
      | dynCb a b dyn => exact (hdyn dyn).elim
      | dynOk a b dyn => exact (hdyn dyn).elim
      | staticMissing sps e st kl sel acts res => rw [res] at hres; cases hres
      | staticErr sps sel st kl hs s0 sb f cr failed body acts res => rw [res] at hres; cases hres
      | staticCb sps sel st kl hs s0 s1 s cr done cbs n o rest split bad good acts res => rw [res] at hres; cases hres
      | staticOk sps sel st kl hs s0 s1 s d cr done good => exact good
  · rintro ⟨hext, hl, hc⟩
    rw [← hcb] at hc
    obtain ⟨sel0, hsel0⟩ := selection_exists hl.linked
    generalize plan cfg env .load m.current m.next = p at *
    have hdyn : cfg.static = none ∨ Kind.load ≠ .load → False := by
      rintro (h | h)
      · rw [hst] at h; cases h
      · exact h rfl
    cases hv with
    | listErr e dyn => exact (hdyn dyn).elim
    | empty a b dyn => exact (hdyn dyn).elim
    | escaped ext panics acts res => exact absurd panics (hext ext)
    | dynErr a b dyn => exact (hdyn dyn).elim
    | dynCb a b dyn => exact (hdyn dyn).elim
    | dynOk a b dyn => exact (hdyn dyn).elim
    | staticMissing sps' e st kl sel acts res => rw [hst] at st; cases st; rw [hsel0] at sel; cases sel
    | staticErr sps' sel st kl hs s0 sb f cr failed body acts res =>
      rw [hst] at st; cases st
      exfalso
      cases failed with
      | early base why =>
        cases f with
        | inr q => exact why
        | inl e =>
          cases e with
          | loading n e =>
            obtain ⟨sp, hsp, hfault⟩ := why
            obtain ⟨h1, ⟨r, h2⟩, ⟨x, h3⟩⟩ := hl.usable n sp ((staticSelection_ok hs n sp).mp hsp)
            cases e with
            | missing l =>
              obtain ⟨rfl, hne⟩ := hfault
              refine hne ?_
              unfold staticMissing
              rw [List.filter_eq_nil_iff]
              intro sym hsym
              rw [h1 sym hsym]; simp
            | hookPanic n =>
              obtain ⟨_, _, hor⟩ := hfault
              rcases hor with hor | hor
              · rw [h2] at hor; cases hor
              · rw [h3] at hor; cases hor
            | _ => exact hfault
          | _ => exact why
      | late s1 done why => exact (late_static hok hs done why.frame.same).no_failure hl.toFits why
    | staticCb sps' sel st kl hs s0 s1 s cr done cbs n o rest split bad good acts res =>
      exact absurd (hc (n, o) (by rw [split]; simp)) bad
    | staticOk sps' sel st kl hs s0 s1 s d cr done good details acts res => exact ⟨s.pm, by rw [acts]; simp⟩

/-- **C69.** Whether a static load succeeds does not depend on the iteration order of maps. -/
theorem C69_order_irrelevant {cfg : Config} (hcfg : cfg.OK) {sps : GoMap StaticPlugin} (hst : cfg.static = some sps) {m : Machine} (h : Reachable cfg m) (env : Env) (it : Iter)
    (hstable : InitStableBy (StaticOffers sps) (selectedNames cfg sps)) :
    (∃ pm, .publish pm ∈ (plan cfg env .load m.current m.next).acts) ↔ ∃ pm, .publish pm ∈ (plan cfg (env.withOrder it) .load m.current m.next).acts := by
  rw [C69_static_success_iff hcfg hst h env hstable, C69_static_success_iff hcfg hst h (env.withOrder it) hstable]
  exact Iff.rfl

/-- **C69.** And what it loads does not depend on it either. -/
theorem C69_same_plugins {cfg : Config} (hcfg : cfg.OK) {sps : GoMap StaticPlugin} (hst : cfg.static = some sps) {m : Machine} (h : Reachable cfg m) (env : Env) (it : Iter) {pm pm' : Manager}
    (hp : .publish pm ∈ (plan cfg env .load m.current m.next).acts) (hp' : .publish pm' ∈ (plan cfg (env.withOrder it) .load m.current m.next).acts) :
    SamePlugins pm pm' ∧
    ∃ d d', (plan cfg env .load m.current m.next).res = .ok d ∧ (plan cfg (env.withOrder it) .load m.current m.next).res = .ok d' ∧ d.entries = d'.entries := by
  have hok := hcfg sps hst
  obtain ⟨sel, s0, s1, s, d, hsel, cr, done, hdet, hres, rfl⟩ := (view hcfg h env .load).static hst rfl hp
  obtain ⟨sel', s0', s1', s', d', hsel', cr', done', hdet', hres', rfl⟩ := (view hcfg h (env.withOrder it) .load).static hst rfl hp'
  have he := hsel.symm.trans hsel'
  injection he with he
  subst he
  have l1 := late_static hok hsel done.stage1 done.fin.frame.same
  have l2 := late_static hok hsel done'.stage1 done'.fin.frame.same
  exact ⟨samePlugins_of (fun hP => l1.same l2 done.fin done'.fin hP) (fun hP => l2.same l1 done'.fin done.fin hP), d, d', hres, hres', hdet.trans hdet'.symm⟩

end

/-! ### Examples -/

namespace Demo

attribute [local instance] rt

/-- A program with two statically linked plugins. -/
def pcfg : Config := { cfg with static := some pair }

/-- `OnInit` of both plugins succeeds with every vault. -/
theorem pair_stable : InitStableBy (StaticOffers pair) (selectedNames pcfg pair) := by
  intro n hn P hP v w
  cases hP with
  | @new sp r x h h1 h2 =>
    have hm : sp ∈ pair.vals := GoMap.mem_vals.mpr ⟨n, h⟩
    have : pair.vals = [⟨"b".toList, fun _ => false, code true 2 []⟩, ⟨"a".toList, fun _ => false, code true 1 []⟩] := by rfl
    rw [this] at hm
    rcases List.mem_cons.mp hm with rfl | hm
    · rfl
    · rcases List.mem_cons.mp hm with rfl | hm
      · rfl
      · cases hm

/-- The hypotheses of the theorems are met, and both sides hold: the pair loads, and so it is `StaticLoadable`. -/
example : pcfg.OK ∧ StaticLoadable pcfg pair env0.data := by
  have hok : pcfg.OK := by intro sps h; cases h; unfold StaticOK; decide +kernel
  refine ⟨hok, ?_⟩
  refine ((C69_static_success_iff hok rfl .init env0 pair_stable).mp ?_).2.1
  have : publishes (plan pcfg env0 .load Machine.init.current Machine.init.next).acts ≠ [] := by
    simp only [ne_eq, ← List.isEmpty_iff, Bool.not_eq_true]; decide +kernel
  obtain ⟨pm, hpm⟩ := List.exists_mem_of_ne_nil _ this
  exact ⟨pm, mem_publishes.mp hpm⟩

/-- A whitelist naming a plugin that is not linked: not `StaticLoadable`. -/
example : ¬ StaticLoadable { pcfg with whitelist := ["zz".toList] } pair 0 := fun h => h.linked "zz".toList (by simp) (by decide +kernel)

end Demo

end Hotswap
