import Verif.Props.Complete
import Verif.Props.Api

/-!
# `Lookup` on the plugins of the current manager (C35), refused calls (C31)
-/

namespace Hotswap

section
variable [GoRuntime]

theorem lookup_of_hasType {syms : Str → Option GoType} {sym : Str} {t : GoType} (hs : sym ≠ []) (h : HasType syms sym t) :
    ∃ w, lookup (some syms) sym (some ⟨.ptr t, false, 0⟩) = .ok w := by
  obtain ⟨st, h1, h2⟩ := h
  simp only [lookup, hs, if_false, isNil, GoType.isNilableKind, Bool.and_false, Bool.false_eq_true, h1]
  by_cases ha : GoRuntime.assignable st t = true
  · exact ⟨_, by rw [if_pos ha]⟩
  · rw [if_neg ha]
    rcases h2 with h2 | ⟨e, rfl, h2⟩
    · exact absurd h2 ha
    · exact ⟨_, by simp only [h2, if_true]; rfl⟩

omit [GoRuntime] in
theorem required_ne : ∀ x ∈ requiredSignatures, x.1 ≠ [] := by decide

/-- A plugin image with all required functions: `Lookup` finds each of them with its type. -/
def Linked (p : Plugin) : Prop :=
  ∃ tbl, p.syms = some tbl ∧ ∀ sym sig, (sym, sig) ∈ requiredSignatures → ∃ w, lookup (some tbl) sym (some ⟨.ptr (Signature.typ sig), false, 0⟩) = .ok w

theorem linked {cfg : Config} (hcfg : cfg.OK) (hst : cfg.static = none) {m : Machine} (h : Reachable cfg m) :
    ∀ pm, m.current = some pm → ∀ p ∈ pm.pluginMap.vals, Linked p := by
  refine current_induction (P := fun pm => ∀ p ∈ pm.pluginMap.vals, Linked p) ?_ h
  intro m env k pm hr hk ih hp q hq
  obtain ⟨absDir, entries, s0, s1, s, d, _, _, cr, done, _, _, rfl, _⟩ := (view hcfg hr env k).dynamic hst hp
  obtain ⟨key, hkey⟩ := GoMap.mem_vals.mp hq
  obtain ⟨p, dd, b, hp1, he, _⟩ := done.fin.frame.same.get' hkey
  obtain ⟨f, hf, hfk⟩ := done.stage1.only key p hp1
  obtain ⟨data, p', _, hp', hfate⟩ := done.stage1.fate f hf
  rw [hfk, hp1] at hp'; cases hp'
  have hl : Linked p := by
    cases hfate with
    | notReloadable om oldP h1 h2 h3 h4 => subst h4; exact ih om h1 oldP (GoMap.mem_vals.mpr ⟨_, h2⟩)
    | unchanged om oldP h1 h2 h3 h4 h5 => subst h5; exact ih om h1 oldP (GoMap.mem_vals.mpr ⟨_, h2⟩)
    | renewed _ hb =>
      obtain ⟨syms, _, hs, hl⟩ := hb.image
      exact ⟨syms, hs, fun sym sig hm => lookup_of_hasType (required_ne _ hm) (hl sym sig hm)⟩
  subst he
  exact hl

/-- **C35.** Without static linking, `Lookup` on a plugin of the current manager never panics, and finds every required function with the declared type. -/
theorem C35_current_dynamic {cfg : Config} (hcfg : cfg.OK) (hst : cfg.static = none) {m : Machine} (h : Reachable cfg m) {pm : Manager} (hc : m.current = some pm)
    {p : Plugin} (hp : p ∈ pm.plugins) :
    (∀ sym out, lookup p.syms sym out ≠ .panics) ∧ ∀ sym sig, (sym, sig) ∈ requiredSignatures → ∃ w, lookup p.syms sym (some ⟨.ptr (Signature.typ sig), false, 0⟩) = .ok w := by
  obtain ⟨tbl, ht, hall⟩ := linked hcfg hst h pm hc p ((current_good hcfg h hc).ordered.mem_iff.mp hp)
  rw [ht]
  exact ⟨fun sym out => C35_dynamic_never_panics tbl sym out, hall⟩

/-- **C31/C35.** Under static linking every plugin of the current manager is one of the linked ones, with its name and code, and every `Lookup` on it with valid arguments panics. -/
theorem C35_current_static {cfg : Config} (hcfg : cfg.OK) {sps : GoMap StaticPlugin} (hst : cfg.static = some sps) {m : Machine} (h : Reachable cfg m) {pm : Manager}
    (hc : m.current = some pm) {p : Plugin} (hp : p ∈ pm.plugins) :
    (∃ n sp, Selected cfg sps n sp ∧ p.name = sp.name ∧ p.code = sp.code) ∧ ∀ sym out t, ValidArgs sym out t → lookup p.syms sym out = .panics := by
  have key : ∀ pm, m.current = some pm → ∀ p ∈ pm.pluginMap.vals, p.syms = none ∧ ∃ n sp, Selected cfg sps n sp ∧ p.name = sp.name ∧ p.code = sp.code := by
    refine current_induction (P := fun pm => ∀ p ∈ pm.pluginMap.vals, p.syms = none ∧ ∃ n sp, Selected cfg sps n sp ∧ p.name = sp.name ∧ p.code = sp.code) ?_ h
    intro m env k pm hr hk _ hp q hq
    obtain ⟨sel, s0, s1, s, d, hsel, cr, done, _, _, rfl⟩ := (view hcfg hr env k).static hst hk hp
    obtain ⟨key, hkey⟩ := GoMap.mem_vals.mp hq
    obtain ⟨p, dd, b, hp1, he, _⟩ := done.fin.frame.same.get' hkey
    obtain ⟨n, hn, sp, hsp, hname⟩ := done.stage1.only key p hp1
    obtain ⟨sp', p', hsp', hp', hb⟩ := done.stage1.new n hn
    rw [hsp] at hsp'; cases hsp'
    rw [hname, hp1] at hp'; cases hp'
    subst he
    exact ⟨hb.syms, n, sp, (staticSelection_ok hsel n sp).mp hsp, hb.name, hb.code⟩
  obtain ⟨h1, h2⟩ := key pm hc p ((current_good hcfg h hc).ordered.mem_iff.mp hp)
  refine ⟨h2, ?_⟩
  intro sym out t hv
  rw [h1]
  exact (C35_static_panics sym out).mpr ⟨t, hv⟩

/-- **C31.** A call is refused only under static linking: in any other program every `LoadPlugins`, `Reload` and `ReloadWithCallback` waits for the lock and is executed. -/
theorem C31_refused_only_static {cfg : Config} {m : Machine} (h : Reachable cfg m) {t : Nat} (ht : (t, Ev.refused) ∈ m.trace) : cfg.static.isSome = true := by
  have key : ∀ t, (t, Ev.refused) ∈ m.trace → cfg.static.isSome = true := by
    refine Reachable.ind (P := fun m => ∀ t, (t, Ev.refused) ∈ m.trace → cfg.static.isSome = true) ?_ ?_ h
    · intro t h; cases h
    · intro m m' l hr ih hs t ht
      rcases hs.emits with he | ⟨e, he, hc⟩
      · exact ih t (by rw [← he]; exact ht)
      · rw [he] at ht
        rcases List.mem_append.mp ht with ht | ht
        · exact ih t ht
        · simp only [List.mem_singleton, Prod.mk.injEq] at ht
          rw [← ht.2] at hc
          cases hc with
          | refused k hk =>
            cases k with
            | load => cases hk
            | reload x => exact hk
  exact key t ht

end

section Examples
open Demo
attribute [local instance] Demo.rt

/-- `Lookup` of `OnFree` on a plugin of the manager after the first load of the example program. -/
example : (m1.current.map (fun pm => pm.plugins.map (fun p => lookup p.syms "OnFree".toList (some ⟨.ptr (.func 2), false, 0⟩)))) =
    some [.ok (.direct (.func 2)), .ok (.direct (.func 2))] := by decide +kernel

/-- One plugin, linked statically. -/
private def scfg : Config := { cfg with static := some (GoMap.empty.insert "base".toList ⟨"base".toList, fun _ => false, goodBase⟩) }

/-- After `LoadPlugins` under static linking, `Lookup` panics; a `Reload` is refused and so recorded. -/
private def sm : Machine := after scfg (callSteps .load env1 10 ++ [.call (.reload none) env1])

example : Reachable scfg sm ∧ (sm.current.map (fun pm => pm.plugins.map (fun p => lookup p.syms "OnFree".toList (some ⟨.ptr (.func 2), false, 0⟩)))) = some [.panics] ∧
    (sm.trace.any (fun e => match e.2 with | .refused => true | _ => false)) = true :=
  ⟨after_reachable (by decide +kernel), by decide +kernel, by decide +kernel⟩

end Examples

end Hotswap
