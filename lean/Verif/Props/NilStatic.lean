import Verif.Proofs.NilStatic
import Verif.Props.StaticClash

/-!
# Nil pointers among the statically linked plugins: C87
-/

namespace Hotswap

section
variable [GoRuntime]

/-- **C87.** If no nil pointer is among the plugins that are loaded, `LoadPlugins` does what it does for a map without nil pointers (the properties of statically linked plugins apply). -/
theorem C87_otherwise_the_same (cfg : Config) (sps : GoMap (Option StaticPlugin)) (env : Env) (old : Option Manager) (n0 : Nat) (h : ∀ n, ¬ NilAt cfg.whitelist sps n) :
    planP cfg sps env n0 = plan { cfg with static := some (nonNil sps) } env .load old n0 := by
  have key : loadStaticPluginsP cfg env (callbacks cfg env .load) sps = loadStaticPlugins { cfg with static := some (nonNil sps) } env (callbacks cfg env .load) (nonNil sps) := by
    unfold loadStaticPluginsP loadStaticPlugins
    congr 1
    funext _
    have hsel : staticSelection { cfg with static := some (nonNil sps) } (nonNil sps) = match selectionP cfg.whitelist sps with
        | .error e => .error e
        | .ok sel => .ok (nonNil sel) := by
      unfold staticSelection selectionP
      simp only
      by_cases hw : cfg.whitelist.isEmpty = true
      · simp [hw]
      · simp only [hw, Bool.false_eq_true, if_false]
        exact selectStaticP_same cfg.whitelist .empty (fun n hn hc => h n ⟨hc, .inr hn⟩)
    change (match selectionP cfg.whitelist sps with | .error e => M.throw e | .ok sel => _) = (match staticSelection { cfg with static := some (nonNil sps) } (nonNil sps) with | .error e => M.throw e | .ok sel => _)
    rw [hsel]
    cases hs : selectionP cfg.whitelist sps with
    | error e => rfl
    | ok sel =>
      have hno : ∀ k, sel.get? k ≠ some none := fun k hk => h k ((selectionP_ok hs k none).mp hk)
      simp only
      rw [loadStaticP_same env.it hno]
      congr 1
      funext _
      congr 1
      funext _
      congr 1
      funext _
      congr 1
      apply GoMap.ext_entries
      change sel.entries.map (fun e => (e.1, "ok".toList)) = (nonNil sel).entries.map (fun e => (e.1, "ok".toList))
      have := congrArg (List.map (fun k : Str => (k, "ok".toList))) (nonNil_keys hno)
      simpa [GoMap.keys, List.map_map, Function.comp_def] using this.symm
  unfold planP plan apiLoad
  rw [key]
  rfl

/-- A load that fails before `initDeps` and gives everything back. -/
structure FailsEarly (q : Plan) (e : Err) : Prop where
  err : q.res = .err e
  unpublished : publishes q.acts = []
  /-- of no plugin any other function than `Reloadable`, `Export` and `OnFree` is called, and no callback is -/
  early : ∀ a ∈ q.acts, a.stage = 1 ∨ ∃ i, a = .release i
  back : ∃ pre rel, q.acts = pre ++ rel.map Act.release ∧ (acquired pre).Perm rel ∧ rel.Nodup

/-- **C87.** A nil pointer among the plugins that are loaded: `LoadPlugins` does not panic, it returns an error, that of the first name under which something is wrong; it gives back whatever it has taken. -/
theorem C87_fails (cfg : Config) (sps : GoMap (Option StaticPlugin)) (env : Env) (n0 : Nat) (hok : StaticOK (nonNil sps)) (hnil : ∃ n, NilAt cfg.whitelist sps n)
    (hext : cfg.hasNewExt = true → env.ext ≠ .panics) (hwl : ∀ n ∈ cfg.whitelist, ∃ v, sps.get? n = some v) :
    ∃ e, NilErr cfg.whitelist sps e ∧ FailsEarly (planP cfg sps env n0) e := by
  have hw : wp (loadStaticPluginsP cfg env (callbacks cfg env .load) sps) (fun _ _ => False)
      (fun f s => ∃ e sb, NilErr cfg.whitelist sps e ∧ f = .inl e ∧ (∀ a ∈ sb.acts, a.stage = 1) ∧ BodyLog none n0 sb ∧ s = { sb with acts := sb.acts ++ cleanupActs env.it sb.pm })
      ⟨n0, noManager, []⟩ := by
    unfold loadStaticPluginsP
    simp only [wp_bind]
    refine wp_mono createManager_wp ?_ ?_
    · intro _ s0 hcr
      change wp (match selectionP cfg.whitelist sps with
        | .error e => M.throw e
        | .ok sel => _) _ _ s0
      cases hsel : selectionP cfg.whitelist sps with
      | error e =>
        unfold selectionP at hsel
        split at hsel
        · cases hsel
        · obtain ⟨n, hn, h1, _⟩ := selectStaticP_err hsel
          obtain ⟨v, hv⟩ := hwl n hn
          rw [h1] at hv; cases hv
      | ok sel =>
        have hs := selectionP_ok hsel
        simp only [wp_bind]
        have hok' : StaticOK (nonNil sel) := by
          refine nodup_submap (g := fun sp : StaticPlugin => name2key sp.name) hok (fun n v hv => ?_)
          rw [get?_nonNil] at hv ⊢
          exact ((hs n _).mp hv).1
        refine wp_mono (loadStaticP_wp env.it env.data hok' ?_ hcr.toFresh) ?_ ?_
        · obtain ⟨n, h1, h2⟩ := hnil
          exact ⟨n, (hs n none).mpr ⟨h1, h2⟩⟩
        · intro _ _ h; exact h.elim
        · rintro f s ⟨f0, sb, hb, ⟨n, hbef, hf⟩, hbody, rfl, rfl⟩
          refine ⟨errOf f0, sb, ?_, rfl, hb.stage, hbody, rfl⟩
          have hbef' : LoadsBefore cfg.whitelist sps n := fun n' v hlt hsl hg => hbef n' v hlt ((hs n' v).mpr ⟨hg, hsl⟩)
          rcases hf with ⟨rfl, hn⟩ | ⟨sp, e, rfl, hn, hw⟩
          · exact .pointer n ((hs n none).mp hn) hbef'
          · obtain ⟨h1, h2⟩ := (hs n _).mp hn
            exact .plugin n sp e h2 h1 hw hbef'
    · rintro f s' ⟨rfl, h1, h2, rfl⟩
      exact absurd h2 (hext h1)
  unfold planP
  cases hx : loadStaticPluginsP cfg env (callbacks cfg env .load) sps ⟨n0, noManager, []⟩ with
  | mk r s =>
    unfold wp at hw
    rw [hx] at hw
    cases r with
    | ok d => exact hw.elim
    | panic p => obtain ⟨e, sb, _, h, _⟩ := hw; cases h
    | err e =>
      obtain ⟨e', sb, he, h, hst, hbody, rfl⟩ := hw
      cases h
      obtain ⟨rel, h1, h2, h3, _⟩ := hbody.cleanup env.it
      refine ⟨e, he, rfl, ?_, ?_, sb.acts, rel, by simp only [h1], h2, h3⟩
      · refine publishes_nil (fun a ha pm e => ?_)
        subst e
        simp only [h1, List.mem_append, List.mem_map] at ha
        rcases ha with ha | ⟨_, _, ha⟩
        · have := hst _ ha; simp [Act.stage] at this
        · cases ha
      · intro a ha
        simp only [h1, List.mem_append, List.mem_map] at ha
        rcases ha with ha | ⟨i, _, rfl⟩
        · exact .inl (hst a ha)
        · exact .inr ⟨i, rfl⟩

/-- **C87.** Exactly when the error is the nil dereference: nothing else is wrong with the plugins whose names come before the first nil pointer. -/
theorem C87_nil_dereference_iff (cfg : Config) (sps : GoMap (Option StaticPlugin)) (env : Env) (n0 : Nat) (hok : StaticOK (nonNil sps)) (hnil : ∃ n, NilAt cfg.whitelist sps n)
    (hext : cfg.hasNewExt = true → env.ext ≠ .panics) (hwl : ∀ n ∈ cfg.whitelist, ∃ v, sps.get? n = some v) :
    (planP cfg sps env n0).res = .err (.panicked none .nilDeref) ↔ ∃ n, NilAt cfg.whitelist sps n ∧ LoadsBefore cfg.whitelist sps n := by
  obtain ⟨e, he, hf⟩ := C87_fails cfg sps env n0 hok hnil hext hwl
  rw [hf.err]
  constructor
  · intro h
    injection h with h
    subst h
    cases he with
    | pointer n isNil before => exact ⟨n, isNil, before⟩
  · rintro ⟨n, hn, hb⟩
    cases he with
    | pointer n isNil before => rfl
    | plugin m sp e sel there wrong before =>
      have htri : m < n ∨ m = n ∨ n < m := by
        by_cases h1 : m < n
        · exact .inl h1
        · by_cases h2 : n < m
          · exact .inr (.inr h2)
          · exact .inr (.inl (List.le_antisymm h2 h1))
      rcases htri with hlt | rfl | hlt
      · obtain ⟨sp', h1, h2⟩ := hb m _ hlt sel there
        injection h1 with h1
        exact absurd (h1 ▸ h2) wrong
      · rw [hn.1] at there; cases there
      · obtain ⟨sp', h1, _⟩ := before n _ hlt hn.2 hn.1
        cases h1

/-- **C87.** Whatever else is wrong, a swapper with such a map never publishes anything, and never calls `OnLoad`, `OnInit` or a callback. -/
theorem C87_never (cfg : Config) (sps : GoMap (Option StaticPlugin)) (env : Env) (n0 : Nat) (hnil : ∃ n, NilAt cfg.whitelist sps n) :
    (∀ d, (planP cfg sps env n0).res ≠ .ok d) ∧ publishes (planP cfg sps env n0).acts = [] ∧ ∀ a ∈ (planP cfg sps env n0).acts, a.stage = 1 ∨ ∃ i, a = .release i := by
  have hw : wp (loadStaticPluginsP cfg env (callbacks cfg env .load) sps) (fun _ _ => False) (fun _ s => ∀ a ∈ s.acts, a.stage = 1 ∨ ∃ i, a = .release i) ⟨n0, noManager, []⟩ := by
    unfold loadStaticPluginsP
    simp only [wp_bind]
    refine wp_mono createManager_wp ?_ ?_
    · intro _ s0 hcr
      change wp (match selectionP cfg.whitelist sps with
        | .error e => M.throw e
        | .ok sel => _) _ _ s0
      cases hsel : selectionP cfg.whitelist sps with
      | error e =>
        simp only [wp_throw]
        rw [hcr.acts]; simp
      | ok sel =>
        simp only [wp_bind]
        refine wp_mono (loadStaticP_low env.it env.data ?_ hcr.acts) ?_ ?_
        · obtain ⟨n, h1, h2⟩ := hnil
          exact ⟨n, (selectionP_ok hsel n none).mpr ⟨h1, h2⟩⟩
        · intro _ _ h; exact h.elim
        · rintro f s ⟨_, h⟩; exact h
    · rintro f s' ⟨rfl, h1, h2, rfl⟩
      simp
  have key : (∀ d, (planP cfg sps env n0).res ≠ .ok d) ∧ ∀ a ∈ (planP cfg sps env n0).acts, a.stage = 1 ∨ ∃ i, a = .release i := by
    unfold planP
    cases hx : loadStaticPluginsP cfg env (callbacks cfg env .load) sps ⟨n0, noManager, []⟩ with
    | mk r s =>
      unfold wp at hw
      rw [hx] at hw
      cases r with
      | ok d => exact hw.elim
      | panic p => exact ⟨by simp, hw⟩
      | err e => exact ⟨by simp, hw⟩
  refine ⟨key.1, publishes_nil (fun a ha pm e => ?_), key.2⟩
  subst e
  rcases key.2 _ ha with h | ⟨i, h⟩
  · simp [Act.stage] at h
  · cases h

end

namespace Demo

attribute [local instance] rt

/-- Plugin `a` is linked properly; under `b` there is a nil pointer. -/
def holes : GoMap (Option StaticPlugin) := ⟨[("a".toList, some ⟨"a".toList, fun _ => false, code true 1 []⟩), ("b".toList, none)], by decide⟩

/-- The hypotheses of the theorems are met, and what happens: instance 1 is registered and released. -/
example : StaticOK (nonNil holes) ∧ NilAt cfg.whitelist holes "b".toList ∧ error? (planP cfg holes env0 0).res = some (.panicked none .nilDeref) ∧
    acquired (planP cfg holes env0 0).acts = [1] ∧ releases (planP cfg holes env0 0).acts = [1] :=
  ⟨by unfold StaticOK; decide +kernel, ⟨by rfl, .inl rfl⟩, by decide +kernel, by decide +kernel, by decide +kernel⟩

/-- With the whitelist `a` the nil pointer does no harm. -/
example : (∀ n, ¬ NilAt ["a".toList] holes n) ∧ details? (planP { cfg with whitelist := ["a".toList] } holes env0 0).res = some [("a".toList, "ok".toList)] := by
  refine ⟨?_, by decide +kernel⟩
  rintro n ⟨h1, h2 | h2⟩
  · cases h2
  · simp only [List.mem_singleton] at h2
    subst h2
    cases h1

end Demo

end Hotswap
