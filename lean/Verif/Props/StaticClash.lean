import Verif.Spec.Clash
import Verif.Proofs.ClashPlan
import Verif.Props.StaticLoads
import Verif.Props.Callbacks

/-!
# Statically linked plugins whose names differ only in case: C32, C82

Nothing is assumed about the names of the plugins here, nor about the state in which the load is started.
-/

namespace Hotswap

section
variable [GoRuntime]

theorem selectedMap_get? {cfg : Config} {sps : GoMap StaticPlugin} {n : Str} {sp : StaticPlugin} : (selectedMap cfg sps).get? n = some sp ↔ Selected cfg sps n sp := by
  unfold selectedMap Selected
  rw [GoMap.get?_filter]
  cases sps.get? n with
  | none => simp
  | some q =>
    simp only [Option.filter, Option.some.injEq]
    constructor
    · intro h
      split at h
      · rename_i hc; cases h; refine ⟨rfl, ?_⟩; simpa using hc
      · cases h
    · rintro ⟨rfl, h⟩
      rw [if_pos (by simpa using h)]

/-- The map of survivors, in terms of the specification. -/
theorem survivors_iff {cfg : Config} {sps : GoMap StaticPlugin} {n : Str} {sp : StaticPlugin} : (survivors cfg sps).get? n = some sp ↔ Survives cfg sps n sp := by
  unfold survivors Survives
  rw [GoMap_get?_lastOnes, selectedMap_get?]
  simp only [selectedMap_get?]

theorem survivors_eq {cfg : Config} {sps sel : GoMap StaticPlugin} (hsel : staticSelection cfg sps = .ok sel) (n : Str) : (survivors cfg sps).get? n = (lastOnes sel).get? n := by
  refine Option.ext (fun sp => ?_)
  rw [survivors_iff, GoMap_get?_lastOnes]
  unfold Survives Selected
  simp only [staticSelection_ok hsel]

theorem survivors_ok (cfg : Config) (sps : GoMap StaticPlugin) : StaticOK (survivors cfg sps) := by
  unfold StaticOK
  have : (survivors cfg sps).vals.map (fun sp => name2key sp.name) = (survivors cfg sps).entries.map (fun e => name2key e.2.name) := by
    simp [GoMap.vals, List.map_map, Function.comp_def]
  rw [this]
  refine List.Nodup.map_on ?_ (List.Nodup.of_map _ (survivors cfg sps).nodup)
  intro e he e' he' hk
  obtain ⟨h1, h2⟩ := survivors_iff.mp (GoMap.get?_eq_some.mpr he)
  obtain ⟨h1', h2'⟩ := survivors_iff.mp (GoMap.get?_eq_some.mpr he')
  have hn : e.1 = e'.1 := List.le_antisymm (h2' e.1 e.2 h1 hk) (h2 e'.1 e'.2 h1' hk.symm)
  have := h1.1
  rw [hn, h1'.1] at this
  injection this with this
  exact Prod.ext hn this.symm

theorem survivorsOnly_selection (cfg : Config) (sps : GoMap StaticPlugin) : staticSelection (cfg.survivorsOnly sps) (survivors cfg sps) = .ok (survivors cfg sps) := rfl

theorem survivorsOnly_names (cfg : Config) (sps : GoMap StaticPlugin) : selectedNames (cfg.survivorsOnly sps) (survivors cfg sps) = (survivors cfg sps).keys := by
  unfold selectedNames Config.survivorsOnly
  rw [List.filter_eq_self]
  intro n _; rfl

/-- The survivors of the survivors. -/
theorem survivors_idem (cfg : Config) (sps : GoMap StaticPlugin) : survivors (cfg.survivorsOnly sps) (survivors cfg sps) = survivors cfg sps := by
  have ext : ∀ a b : GoMap StaticPlugin, a.entries = b.entries → a = b := by
    rintro ⟨a, ha⟩ ⟨b, hb⟩ h; cases h; rfl
  have hsel : selectedMap (cfg.survivorsOnly sps) (survivors cfg sps) = survivors cfg sps :=
    ext _ _ (List.filter_eq_self.mpr (fun _ _ => rfl))
  show lastOnes (selectedMap (cfg.survivorsOnly sps) (survivors cfg sps)) = survivors cfg sps
  rw [hsel]
  apply ext
  refine List.filter_eq_self.mpr ?_
  intro e he
  obtain ⟨h1, h2⟩ := survivors_iff.mp (GoMap.get?_eq_some.mpr he)
  rw [List.all_eq_true]
  intro e' he'
  by_cases hk : name2key e'.2.name = name2key e.2.name
  · have := h2 e'.1 e'.2 (survivors_iff.mp (GoMap.get?_eq_some.mpr he')).1 hk
    simp [this]
  · simp [hk]

omit [GoRuntime] in
theorem selection_linked {cfg : Config} {sps sel : GoMap StaticPlugin} (h : staticSelection cfg sps = .ok sel) : ∀ n ∈ cfg.whitelist, sps.get? n ≠ none := by
  have key : ∀ (l : List Str) (acc : GoMap StaticPlugin), selectStatic sps l acc = .ok sel → ∀ n ∈ l, sps.get? n ≠ none := by
    intro l
    induction l with
    | nil => intro acc _ n hn; cases hn
    | cons a r ih =>
      intro acc h n hn
      unfold selectStatic at h
      cases ha : sps.get? a with
      | none => rw [ha] at h; cases h
      | some q =>
        rw [ha] at h
        rcases List.mem_cons.mp hn with rfl | hn
        · rw [ha]; simp
        · exact ih _ h n hn
  unfold staticSelection at h
  split at h
  · rename_i hw
    intro n hn
    rw [List.isEmpty_iff.mp hw] at hn; cases hn
  · exact key _ _ h

theorem ClashDone.late {cfg : Config} {sps sel : GoMap StaticPlugin} (hsel : staticSelection cfg sps = .ok sel) {n0 a : Nat} {pm0 : Manager} {s1 : LoadSt} {m : GoMap Plugin}
    (h : ClashDone n0 pm0 sel a s1) (same : SameMap s1.pm.pluginMap m) : Late (StaticOffers (survivors cfg sps)) none n0 (survivors cfg sps).keys m := by
  obtain ⟨acts', hi⟩ := h.inv
  have hk : ∀ n, n ∈ (lastOnes sel).keys ↔ n ∈ (survivors cfg sps).keys := by
    intro n; rw [GoMap.mem_keys, GoMap.mem_keys, survivors_eq hsel]
  have : StaticInv n0 pm0 (survivors cfg sps) (survivors cfg sps).keys { s1 with acts := acts' } := by
    refine ⟨hi.base, ?_, ?_, hi.asked⟩
    · intro n hn
      obtain ⟨sp, p, h1, h2⟩ := hi.new n ((hk n).mpr hn)
      exact ⟨sp, p, (survivors_eq hsel n).trans h1, h2⟩
    · intro k p hp
      obtain ⟨n, hn, sp, h1, h2⟩ := hi.only k p hp
      exact ⟨n, (hk n).mp hn, sp, (survivors_eq hsel n).trans h1, h2⟩
  have := late_static (survivors_ok cfg sps) (survivorsOnly_selection cfg sps) this same
  rw [survivorsOnly_names] at this
  exact this

theorem ClashView.success {cfg : Config} {env : Env} {sps : GoMap StaticPlugin} {n0 : Nat} {p : Plan} (h : ClashView cfg env sps n0 p) {pm : Manager} (hp : .publish pm ∈ p.acts) :
    ∃ sel s0 s1 d, staticSelection cfg sps = .ok sel ∧ Created cfg env n0 s0 ∧ ClashDone n0 s0.pm sel s0.next s1 ∧
      (∃ s, s.pm = pm ∧ Finished s1 env.it env.data s ∧ GoodManager s.next s.pm ∧ p.next = s.next ∧
        p.acts = s.acts ++ cbActs s.pm.mid none (callbacks cfg env .load) ++ [.publish s.pm]) ∧
      (∀ c ∈ callbacks cfg env .load, c.2 = .ok) ∧ d.entries = sel.entries.map (fun e => (e.1, "ok".toList)) ∧ p.res = .ok d ∧ p.built = pm := by
  have hrel : ∀ pm' : Manager, Act.publish pm ∉ cleanupActs env.it pm' := by
    intro pm' h; unfold cleanupActs at h; simp at h
  have hcb : ∀ a b l, Act.publish pm ∉ cbActs a b l := by
    intro a b l h; unfold cbActs at h; simp at h
  have hcre : ∀ a n, Act.publish pm ∉ createdActs a n := by
    intro a n h; unfold createdActs threeActs at h; simp at h
  have hfin : ∀ {s0 s1 s : LoadSt} {sel it data} {im ol lf lt oi v0}, ClashDone n0 s0.pm sel s0.next s1 → FinishFrame s1 s → FinishLog s1 it data s im ol lf lt oi v0 → Act.publish pm ∉ s.acts := by
    intro s0 s1 s sel it data im ol lf lt oi v0 hd hfr hl h
    obtain ⟨ext, he, hext⟩ := hl.insts hfr
    rw [he, hd.acts] at h
    rcases List.mem_append.mp h with h | h
    · exact hcre _ _ h
    · obtain ⟨⟨i, _, hi⟩, _⟩ := hext _ h
      cases hi
  cases h with
  | escaped ext panics acts => rw [acts] at hp; cases hp
  | missing e sel acts => rw [acts] at hp; cases hp
  | failed sel hsel s0 sb f cr fail acts =>
    exfalso
    rw [acts] at hp
    rcases List.mem_append.mp hp with hp | hp
    · cases fail with
      | early why =>
        obtain ⟨k, ext, _, he, hpre⟩ := why.acts
        rw [he] at hp
        rcases List.mem_append.mp hp with hp | hp
        · exact hcre _ _ hp
        · have := hpre.subset hp; simp at this
      | late s1 done why =>
        obtain ⟨im, ol, lf, lt, oi, v0, hl⟩ := why.log
        exact hfin done why.frame hl hp
    · exact hrel _ hp
  | cb sel hsel s0 s1 s cr done fin good cbs n o rest split bad acts =>
    exfalso
    rw [acts] at hp
    obtain ⟨v0, hl, _⟩ := fin.log
    rcases List.mem_append.mp hp with hp | hp
    · rcases List.mem_append.mp hp with hp | hp
      · exact hfin done fin.frame hl hp
      · exact hcb _ _ _ hp
    · exact hrel _ hp
  | ok sel hsel s0 s1 s d cr done fin good cbs details acts res built next =>
    have hpm : s.pm = pm := by
      rw [acts] at hp
      obtain ⟨v0, hl, _⟩ := fin.log
      rcases List.mem_append.mp hp with hp | hp
      · rcases List.mem_append.mp hp with hp | hp
        · exact absurd hp (hfin done fin.frame hl)
        · exact absurd hp (hcb _ _ _)
      · simp at hp; exact hp.symm
    exact ⟨sel, s0, s1, d, hsel, cr, done, ⟨s, hpm, fin, good, next, acts⟩, cbs, details, res, by rw [built, hpm]⟩

/-- **C32**, exactly. After a successful static load, `FindPlugin` finds the plugin stored last among those with the same name up to case, with its own functions; there are no
other plugins in the manager, and every selected plugin is reported as "ok". -/
theorem C32_exact {cfg : Config} {sps : GoMap StaticPlugin} (hst : cfg.static = some sps) (env : Env) (old : Option Manager) (n0 : Nat) {pm : Manager}
    (hp : .publish pm ∈ (plan cfg env .load old n0).acts) :
    (∀ n sp, Survives cfg sps n sp → ∃ p ∈ pm.plugins, pm.findPlugin sp.name = some p ∧ p.name = sp.name ∧ p.code = sp.code) ∧
    (∀ p ∈ pm.plugins, ∃ n sp, Survives cfg sps n sp ∧ sp.name = p.name ∧ sp.code = p.code) ∧
    (pm.plugins.map (fun p => name2key p.name)).Nodup ∧
    ∃ d, (plan cfg env .load old n0).res = .ok d ∧ ∀ n v, d.get? n = some v ↔ (∃ sp, Selected cfg sps n sp) ∧ v = "ok".toList := by
  obtain ⟨sel, s0, s1, d, hsel, cr, done, ⟨s, rfl, fin, good, _⟩, _, hdet, hres, _⟩ := (clash_view hst env old n0).success hp
  have hlate := done.late hsel fin.frame.same
  obtain ⟨acts', hi⟩ := done.inv
  have hfound : ∀ n sp, (lastOnes sel).get? n = some sp → ∃ q, s.pm.pluginMap.get? (name2key sp.name) = some q ∧ q.name = sp.name ∧ q.code = sp.code := by
    intro n sp hs
    obtain ⟨sp', q, h1, h2, h3⟩ := hi.new n (GoMap.mem_keys.mpr ⟨sp, hs⟩)
    rw [hs] at h1; cases h1
    obtain ⟨dp, bd, h4⟩ := fin.frame.same.get _ q h2
    exact ⟨_, h4, h3.name, h3.code⟩
  have hsurv : ∀ n sp, Survives cfg sps n sp ↔ (lastOnes sel).get? n = some sp := by
    intro n sp; rw [← survivors_eq hsel, survivors_iff]
  refine ⟨?_, ?_, ?_, d, hres, ?_⟩
  · intro n sp hs
    obtain ⟨q, h1, h2, h3⟩ := hfound n sp ((hsurv n sp).mp hs)
    exact ⟨q, good.ordered.mem_iff.mpr (GoMap.mem_vals.mpr ⟨_, h1⟩), h1, h2, h3⟩
  · intro p hp
    obtain ⟨key, hkp⟩ := GoMap.mem_vals.mp (good.ordered.mem_iff.mp hp)
    obtain ⟨q, dp, bd, hq, _⟩ := fin.frame.same.get' hkp
    obtain ⟨n, hn, sp, hs, hkey⟩ := hi.only key q hq
    obtain ⟨q', h1, h2, h3⟩ := hfound n sp hs
    rw [hkey, hkp] at h1; cases h1
    exact ⟨n, sp, (hsurv n sp).mpr hs, h2.symm, h3.symm⟩
  · have hperm : (s.pm.plugins.map (fun p => name2key p.name)).Perm (s.pm.pluginMap.vals.map (fun p => name2key p.name)) := good.ordered.map _
    refine hperm.symm.nodup ?_
    have : s.pm.pluginMap.vals.map (fun p => name2key p.name) = s.pm.pluginMap.keys := by
      unfold GoMap.vals GoMap.keys
      rw [List.map_map]
      refine List.map_congr_left ?_
      intro e he
      exact good.keyed e.1 e.2 (GoMap.get?_eq_some.mpr he)
    rw [this]
    exact s.pm.pluginMap.nodup
  · intro n v
    rw [GoMap.get?_eq_some, hdet, List.mem_map]
    constructor
    · rintro ⟨e, he, h⟩
      cases h
      exact ⟨⟨e.2, (staticSelection_ok hsel _ _).mp (GoMap.get?_eq_some.mpr he)⟩, rfl⟩
    · rintro ⟨⟨sp, hs⟩, rfl⟩
      exact ⟨(n, sp), GoMap.get?_eq_some.mp ((staticSelection_ok hsel n sp).mpr hs), rfl⟩

/-- **C82.** Exactly when a static load succeeds: the extension newer does not panic, the plugins of the whitelist are linked, **every** selected plugin is complete and its
`Reloadable` and `Export` return, the **surviving** plugins fit together and their hooks succeed, and the callback succeeds. -/
theorem C82_success_iff {cfg : Config} {sps : GoMap StaticPlugin} (hst : cfg.static = some sps) (env : Env) (old : Option Manager) (n0 : Nat)
    (hstable : InitStableBy (StaticOffers (survivors cfg sps)) (survivors cfg sps).keys) :
    (∃ pm, .publish pm ∈ (plan cfg env .load old n0).acts) ↔
      (cfg.hasNewExt = true → env.ext ≠ .panics) ∧
      (∀ n ∈ cfg.whitelist, sps.get? n ≠ none) ∧
      (∀ n sp, Selected cfg sps n sp → (∀ sym ∈ requiredFunctions, sp.missing sym = false) ∧ (∃ r, sp.code.reloadable = .ret r) ∧ ∃ x, sp.code.exportRet = .ret x) ∧
      Fits (StaticOffers (survivors cfg sps)) env.data (survivors cfg sps).keys ∧
      (cfg.hasCallback = true → env.cbResult = .ok) := by
  have hcb : (∀ c ∈ callbacks cfg env .load, c.2 = .ok) ↔ (cfg.hasCallback = true → env.cbResult = .ok) := by
    unfold callbacks
    cases cfg.hasCallback <;> simp
  have hmiss : ∀ sp : StaticPlugin, staticMissing sp = [] ↔ ∀ sym ∈ requiredFunctions, sp.missing sym = false := by
    intro sp
    unfold staticMissing
    rw [List.filter_eq_nil_iff]
    constructor
    · intro h sym hs; simpa using h sym hs
    · intro h sym hs; rw [h sym hs]; simp
  constructor
  · rintro ⟨pm, hp⟩
    obtain ⟨sel, s0, s1, d, hsel, cr, done, ⟨s, rfl, fin, good, _⟩, hcbs, hdet, hres, _⟩ := (clash_view hst env old n0).success hp
    refine ⟨?_, ?_, ?_, (done.late hsel fin.frame.same).fits fin good hstable, hcb.mp hcbs⟩
    · intro he hx
      have := cr.ext
      rw [if_pos he, hx] at this; cases this
    · exact selection_linked hsel
    · intro n sp hs
      obtain ⟨h1, h2, h3⟩ := done.usable n sp ((staticSelection_ok hsel n sp).mpr hs)
      exact ⟨(hmiss sp).mp h1, h2, h3⟩
  · rintro ⟨hext, hlinked, husable, hfits, hc⟩
    rw [← hcb] at hc
    obtain ⟨sel0, hsel0⟩ := selection_exists hlinked
    have hv := clash_view hst env old n0
    generalize plan cfg env .load old n0 = p at *
    cases hv with
    | escaped ext panics => exact absurd panics (hext ext)
    | missing e sel => rw [hsel0] at sel; cases sel
    | failed sel hsel s0 sb f cr fail =>
      exfalso
      cases fail with
      | early why =>
        have hw := why.why
        cases f with
        | inr q => exact hw
        | inl e =>
          cases e with
          | loading n e =>
            obtain ⟨sp, hsp, hfault⟩ := hw
            obtain ⟨h1, ⟨r, h2⟩, ⟨x, h3⟩⟩ := husable n sp ((staticSelection_ok hsel n sp).mp hsp)
            cases e with
            | missing l =>
              obtain ⟨rfl, hne⟩ := hfault
              exact hne ((hmiss sp).mpr h1)
            | hookPanic n =>
              obtain ⟨_, _, hor⟩ := hfault
              rcases hor with hor | hor
              · rw [h2] at hor; cases hor
              · rw [h3] at hor; cases hor
            | _ => exact hfault
          | _ => exact hw
      | late s1 done why => exact (done.late hsel why.frame.same).no_failure hfits why
    | cb sel hsel s0 s1 s cr done fin good cbs n o rest split bad => exact absurd (hc (n, o) (by rw [split]; simp)) bad
    | ok sel hsel s0 s1 s d cr done fin good cbs details acts => exact ⟨s.pm, by rw [acts]; simp⟩

/-- **C82.** It succeeds if and only if the program without the plugins that do not survive succeeds (in any state), all plugins of the whitelist are linked, and the others can at least be asked for
`Reloadable` and `Export`. -/
theorem C82_iff_survivors {cfg : Config} {sps : GoMap StaticPlugin} (hst : cfg.static = some sps) (env : Env) (old old' : Option Manager) (n0 n0' : Nat)
    (hstable : InitStableBy (StaticOffers (survivors cfg sps)) (survivors cfg sps).keys) :
    (∃ pm, .publish pm ∈ (plan cfg env .load old n0).acts) ↔
      (∃ pm, .publish pm ∈ (plan (cfg.survivorsOnly sps) env .load old' n0').acts) ∧ (∀ n ∈ cfg.whitelist, sps.get? n ≠ none) ∧
      ∀ n sp, Selected cfg sps n sp → ¬ Survives cfg sps n sp →
        (∀ sym ∈ requiredFunctions, sp.missing sym = false) ∧ (∃ r, sp.code.reloadable = .ret r) ∧ ∃ x, sp.code.exportRet = .ret x := by
  have hi := survivors_idem cfg sps
  rw [C82_success_iff hst env old n0 hstable, C82_success_iff (cfg := cfg.survivorsOnly sps) rfl env old' n0' (by rw [hi]; exact hstable), hi]
  constructor
  · rintro ⟨h1, h2, h3, h4, h5⟩
    refine ⟨⟨h1, (fun n hn => nomatch hn), ?_, h4, h5⟩, h2, fun n sp hs _ => h3 n sp hs⟩
    intro n sp hs
    exact h3 n sp (survivors_iff.mp hs.1).1
  · rintro ⟨⟨h1, _, h3, h4, h5⟩, h2, h3'⟩
    refine ⟨h1, h2, ?_, h4, h5⟩
    intro n sp hs
    by_cases hv : Survives cfg sps n sp
    · exact h3 n sp ⟨survivors_iff.mpr hv, .inl rfl⟩
    · exact h3' n sp hs hv

/-- **C82.** And then both load the same plugins, with the same dependencies. -/
theorem C82_same_as_survivors {cfg : Config} {sps : GoMap StaticPlugin} (hst : cfg.static = some sps) (env : Env) (it : Iter) (old old' : Option Manager) (n0 n0' : Nat) {pm pm' : Manager}
    (hp : .publish pm ∈ (plan cfg env .load old n0).acts) (hp' : .publish pm' ∈ (plan (cfg.survivorsOnly sps) (env.withOrder it) .load old' n0').acts) : SamePlugins pm pm' := by
  obtain ⟨sel, s0, s1, d, hsel, cr, done, ⟨s, rfl, fin, good, _⟩, _⟩ := (clash_view hst env old n0).success hp
  obtain ⟨sel', s0', s1', d', hsel', cr', done', ⟨s', rfl, fin', good', _⟩, _⟩ := (clash_view (cfg := cfg.survivorsOnly sps) (sps := survivors cfg sps) rfl (env.withOrder it) old' n0').success hp'
  have l1 := done.late hsel fin.frame.same
  have l2 := done'.late hsel' fin'.frame.same
  rw [survivors_idem] at l2
  have l2' : Late (StaticOffers (survivors cfg sps)) none n0 (survivors cfg sps).keys s'.pm.pluginMap := ⟨(by intro om h; cases h), l2.keyed, l2.uniq, l2.src, (fun f P h => nomatch h), l2.of, l2.back⟩
  exact samePlugins_of (fun hP => l1.same l2' fin fin' hP) (fun hP => l2'.same l1 fin' fin hP)

/-- **C82.** The published manager is well-formed: distinct plugins, found under their own names, sorted so that dependencies come first. -/
theorem C82_manager {cfg : Config} {sps : GoMap StaticPlugin} (hst : cfg.static = some sps) (env : Env) (old : Option Manager) (n0 : Nat) {pm : Manager}
    (hp : .publish pm ∈ (plan cfg env .load old n0).acts) : GoodManager (plan cfg env .load old n0).next pm := by
  obtain ⟨sel, s0, s1, d, hsel, cr, done, ⟨s, rfl, fin, good, hn, _⟩, _⟩ := (clash_view hst env old n0).success hp
  rw [hn]; exact good

omit [GoRuntime] in
theorem about_created (i a n : Nat) : about i (createdActs a n) = if a ≤ i ∧ i < a + n then threeActs i else [] := by
  induction n with
  | zero => rw [if_neg (by omega)]; rfl
  | succ n ih =>
    rw [createdActs_succ]
    unfold about at *
    rw [List.filter_append, ih]
    by_cases h : i = a + n
    · subst h
      rw [if_neg (by omega), if_pos (by omega)]
      simp [threeActs, Act.inst?]
    · have : (threeActs (a + n)).filter (fun x => x.inst? == some i) = [] := by
        have h' : ¬ a + n = i := fun e => h e.symm
        simp [threeActs, Act.inst?, h']
      rw [this, List.append_nil]
      by_cases hc : a ≤ i ∧ i < a + n
      · rw [if_pos hc, if_pos (by omega)]
      · rw [if_neg hc, if_neg (by omega)]

omit [GoRuntime] in
theorem register_created {i a n : Nat} : Act.register i ∈ createdActs a n ↔ a ≤ i ∧ i < a + n := by
  unfold createdActs threeActs
  simp [List.mem_flatMap]

theorem releases_created (a n : Nat) : releases (createdActs a n) = [] := by
  induction n with
  | zero => rfl
  | succ n ih => rw [createdActs_succ, releases_append, ih]; rfl

omit [GoRuntime] in
theorem freeOrder_insts (it : Iter) {pm : Manager} (h : pm.ordered = [] ∨ pm.ordered.Perm pm.pluginMap.vals) : ((freeOrder it pm).map (·.inst)).Perm pm.insts := by
  unfold freeOrder
  by_cases ho : pm.ordered = []
  · rw [if_pos ho]
    exact (GoMap.rangeKV_vals_perm it .free pm.pluginMap).map _
  · rw [if_neg ho]
    rcases h with h | h
    · exact absurd h ho
    · exact ((List.reverse_perm _).trans h).map _

/-- The trace of a static load: what happens to every plugin, then what happens to those in the manager, then their release. -/
structure ClashTrace (cfg : Config) (sps : GoMap StaticPlugin) (n0 : Nat) (p : Plan) (k : Nat) (ext : List Act) (rel : List Nat) : Prop where
  acts : p.acts = createdActs (n0 + 1) k ++ ext ++ rel.map Act.release
  mid : ∀ a ∈ ext, (∀ i, a.inst? = some i → i ∈ p.built.insts ∨ i = n0 + 1 + k ∧ i < p.next) ∧ (∀ j, a ≠ .release j ∧ a ≠ .register j) ∧ ∀ om, a ≠ .spawnFree om
  own : ∀ i, i ∉ p.built.insts → about i ext <+: [.callReloadable i, .callExport i]
  range : ∀ i ∈ p.built.insts, n0 ≤ i ∧ i < p.next
  next : n0 + 1 + k ≤ p.next
  ok : (∃ pm, .publish pm ∈ p.acts) → rel = [] ∧ ∀ sel, staticSelection cfg sps = .ok sel → k = sel.size
  bad : (¬ ∃ pm, .publish pm ∈ p.acts) → rel.Perm p.built.insts

omit [GoRuntime] in
theorem about_nil {i : Nat} {l : List Act} (h : ∀ a ∈ l, a.inst? ≠ some i) : about i l = [] := by
  unfold about
  rw [List.filter_eq_nil_iff]
  intro a ha hc
  exact h a ha (by simpa using hc)

theorem Base.insts_range {n0 : Nat} {pm0 : Manager} {s : LoadSt} (h : Base none n0 pm0 s) : ∀ i ∈ s.pm.insts, n0 ≤ i ∧ i < s.next := by
  intro i hi
  rcases h.mem_insts hi with ⟨om, _, _, ho, _⟩ | h
  · cases ho
  · exact h

theorem ClashView.trace {cfg : Config} {env : Env} {sps : GoMap StaticPlugin} {n0 : Nat} {p : Plan} (h : ClashView cfg env sps n0 p) :
    ∃ k ext rel, ClashTrace cfg sps n0 p k ext rel := by
  have hcl : ∀ pm : Manager, cleanupActs env.it pm = ((freeOrder env.it pm).map (·.inst)).map Act.release := by
    intro pm; simp [cleanupActs, Function.comp_def]
  have hcb : ∀ new old l, ∀ a ∈ cbActs new old l, a.inst? = none ∧ (∀ j, a ≠ .release j ∧ a ≠ .register j) ∧ ∀ om, a ≠ .spawnFree om := by
    intro new old l a ha
    obtain ⟨c, _, rfl⟩ := List.mem_map.mp ha
    exact ⟨rfl, fun j => ⟨(fun h => nomatch h), (fun h => nomatch h)⟩, (fun om h => nomatch h)⟩
  have hno : (∀ d, p.res ≠ .ok d) → ¬ ∃ pm, .publish pm ∈ p.acts := by
    rintro hr ⟨pm, hp⟩
    obtain ⟨_, _, _, d, _, _, _, _, _, _, hr', _⟩ := h.success hp
    exact hr d hr'
  -- the later phases
  have hlater : ∀ {s0 s1 s : LoadSt} {sel : GoMap StaticPlugin} {it : Iter} {data : Nat} {im ol lf lt oi v0}, Created cfg env n0 s0 → ClashDone n0 s0.pm sel s0.next s1 → FinishFrame s1 s →
      FinishLog s1 it data s im ol lf lt oi v0 →
      (∃ ext, s.acts = createdActs (n0 + 1) sel.size ++ ext ∧ ∀ a ∈ ext, (∃ i ∈ s.pm.insts, a.inst? = some i) ∧ ∀ j, a ≠ .release j ∧ a ≠ .register j) ∧
      (∀ i ∈ s.pm.insts, n0 ≤ i ∧ i < s.next) ∧ n0 + 1 + sel.size ≤ s.next := by
    intro s0 s1 s sel it data im ol lf lt oi v0 cr hd hf hl
    obtain ⟨ext, he, hext⟩ := hl.insts hf
    obtain ⟨acts', hi⟩ := hd.inv
    have h1 : s.pm.insts = s1.pm.insts := hf.same.insts
    refine ⟨⟨ext, by rw [he, hd.acts, cr.next], hext⟩, ?_, by rw [hf.next, hd.next, cr.next]⟩
    rw [h1, hf.next]
    exact hi.base.insts_range
  have hplain : ∀ {ext : List Act} {pm : Manager}, p.built = pm → (∀ a ∈ ext, (∃ i ∈ pm.insts, a.inst? = some i) ∧ ∀ j, a ≠ .release j ∧ a ≠ .register j) → ∀ l : List Act,
      (∀ a ∈ l, a.inst? = none ∧ (∀ j, a ≠ .release j ∧ a ≠ .register j) ∧ ∀ om, a ≠ .spawnFree om) → ∀ k,
      (∀ a ∈ ext ++ l, (∀ i, a.inst? = some i → i ∈ p.built.insts ∨ i = n0 + 1 + k ∧ i < p.next) ∧ (∀ j, a ≠ .release j ∧ a ≠ .register j) ∧ ∀ om, a ≠ .spawnFree om) ∧
      (∀ i, i ∉ p.built.insts → about i (ext ++ l) <+: [.callReloadable i, .callExport i]) := by
    intro ext pm hb hext l hl k
    have key : ∀ a ∈ ext ++ l, (∀ i, a.inst? = some i → i ∈ p.built.insts) ∧ (∀ j, a ≠ .release j ∧ a ≠ .register j) ∧ ∀ om, a ≠ .spawnFree om := by
      intro a ha
      rcases List.mem_append.mp ha with ha | ha
      · obtain ⟨⟨i, hi, hai⟩, h2⟩ := hext a ha
        refine ⟨fun j hj => ?_, h2, ?_⟩
        · rw [hai] at hj; cases hj; rw [hb]; exact hi
        · rintro om rfl; cases hai
      · obtain ⟨h1, h2⟩ := hl a ha
        exact ⟨(fun i hi => by rw [h1] at hi; cases hi), h2⟩
    refine ⟨fun a ha => ⟨fun i hi => .inl ((key a ha).1 i hi), (key a ha).2⟩, fun i hi => ?_⟩
    rw [about_nil (fun a ha hc => hi ((key a ha).1 i hc))]
    exact List.nil_prefix
  have hempty : p.built.pluginMap = .empty → p.built.insts = [] := by
    intro h; unfold Manager.insts; rw [h]; rfl
  have hv := h
  cases h with
  | escaped ext panics acts res built next =>
    have hr := hno (by rw [res]; exact fun d h => nomatch h)
    exact ⟨0, [], [], ⟨by rw [acts]; rfl, by simp, (fun i _ => List.nil_prefix), by rw [hempty built]; simp, by omega, fun hp => absurd hp hr, fun _ => by rw [hempty built]⟩⟩
  | missing e sel acts res built next =>
    have hr := hno (by rw [res]; exact fun d h => nomatch h)
    exact ⟨0, [], [], ⟨by rw [acts]; rfl, by simp, (fun i _ => List.nil_prefix), by rw [hempty built]; simp, by omega, fun hp => absurd hp hr, fun _ => by rw [hempty built]⟩⟩
  | failed sel hsel s0 sb f cr fail acts res built next =>
    have hr := hno (by rw [res]; exact fun d h => nomatch h)
    cases fail with
    | early why =>
      obtain ⟨k, ext, hn, he, hpre⟩ := why.acts
      obtain ⟨acts', hb⟩ := why.base
      rw [cr.next] at hpre hn he
      have hin : ∀ a ∈ ext, a.inst? = some (n0 + 1 + k) ∧ (∀ j, a ≠ .release j ∧ a ≠ .register j) ∧ ∀ om, a ≠ .spawnFree om := by
        intro a ha
        have hm := hpre.subset ha
        simp only [List.mem_cons, List.not_mem_nil, or_false] at hm
        rcases hm with rfl | rfl <;> exact ⟨rfl, fun j => ⟨(fun h => nomatch h), (fun h => nomatch h)⟩, (fun om h => nomatch h)⟩
      refine ⟨k, ext, (freeOrder env.it sb.pm).map (·.inst), ⟨by rw [acts, he, hcl], ?_, ?_, ?_, by omega, fun hp => absurd hp hr, fun _ => ?_⟩⟩
      · intro a ha
        obtain ⟨h1, h2⟩ := hin a ha
        refine ⟨fun i hi => .inr ?_, h2⟩
        rw [h1] at hi; cases hi
        exact ⟨rfl, by omega⟩
      · intro i _
        by_cases hi : i = n0 + 1 + k
        · subst hi
          have : about (n0 + 1 + k) ext = ext := by
            unfold about
            rw [List.filter_eq_self]
            intro a ha; rw [(hin a ha).1]; simp
          rw [this]; exact hpre
        · rw [about_nil]
          · exact List.nil_prefix
          · intro a ha hc
            rw [(hin a ha).1] at hc
            cases hc; exact hi rfl
      · rw [built, next]; exact hb.insts_range
      · have hpm : sb.pm = { s0.pm with pluginMap := sb.pm.pluginMap } := hb.pm
        rw [built]
        exact freeOrder_insts _ (.inl (by rw [hpm]; exact cr.ordered))
    | late s1 done why =>
      obtain ⟨im, ol, lf, lt, oi, v0, hl⟩ := why.log
      obtain ⟨⟨ext, he, hext⟩, hrange, hle⟩ := hlater cr done why.frame hl
      obtain ⟨h1, h2⟩ := hplain built hext [] (by simp) sel.size
      rw [List.append_nil] at h1
      simp only [List.append_nil] at h2
      refine ⟨sel.size, ext, (freeOrder env.it sb.pm).map (·.inst), ⟨by rw [acts, he, hcl], h1, h2, by rw [built, next]; exact hrange, by omega, fun hp => absurd hp hr, fun _ => ?_⟩⟩
      rw [built]
      refine freeOrder_insts _ ?_
      rcases why.frame.order with h | h
      · exact .inl h
      · exact .inr h.perm
  | cb sel hsel s0 s1 s cr done fin good cbs n o rest split bad acts res built next =>
    have hr := hno (by rw [res]; exact fun d h => nomatch h)
    obtain ⟨v0, hl, _⟩ := fin.log
    obtain ⟨⟨ext, he, hext⟩, hrange, hle⟩ := hlater cr done fin.frame hl
    obtain ⟨h1, h2⟩ := hplain built hext (cbActs s.pm.mid none (cbs ++ [(n, o)])) (hcb _ _ _) sel.size
    refine ⟨sel.size, ext ++ cbActs s.pm.mid none (cbs ++ [(n, o)]), (freeOrder env.it s.pm).map (·.inst), ⟨by rw [acts, he, hcl]; simp only [List.append_assoc], h1, h2,
      by rw [built, next]; exact hrange, by omega, fun hp => absurd hp hr, fun _ => ?_⟩⟩
    rw [built]; exact freeOrder_insts _ (.inr good.ordered)
  | ok sel hsel s0 s1 s d cr done fin good cbs details acts res built next =>
    obtain ⟨v0, hl, _⟩ := fin.log
    obtain ⟨⟨ext, he, hext⟩, hrange, hle⟩ := hlater cr done fin.frame hl
    obtain ⟨h1, h2⟩ := hplain built hext (cbActs s.pm.mid none (callbacks cfg env .load) ++ [.publish s.pm]) (by
      intro a ha
      rcases List.mem_append.mp ha with ha | ha
      · exact hcb _ _ _ a ha
      · simp at ha; subst ha
        exact ⟨rfl, fun j => ⟨(fun h => nomatch h), (fun h => nomatch h)⟩, (fun om h => nomatch h)⟩) sel.size
    exact ⟨sel.size, ext ++ (cbActs s.pm.mid none (callbacks cfg env .load) ++ [.publish s.pm]), [], ⟨by rw [acts, he]; simp only [List.append_assoc, List.map_nil, List.append_nil], h1, h2,
      by rw [built, next]; exact hrange, by omega,
      fun _ => ⟨rfl, fun sel' h' => by rw [hsel] at h'; cases h'; rfl⟩, fun hno => absurd ⟨s.pm, by rw [acts]; simp⟩ hno⟩⟩

/-- **C82.** A plugin that was registered and is not in the manager that was built was asked `Reloadable` and `Export`, and that is all that happens to it: none of its other
functions is called, whether the load succeeds or fails; in particular it is never released, so that its `OnFree` is never called. -/
theorem C82_dropped {cfg : Config} {sps : GoMap StaticPlugin} (hst : cfg.static = some sps) (env : Env) (old : Option Manager) (n0 : Nat) {i : Nat}
    (hr : Act.register i ∈ (plan cfg env .load old n0).acts) (hi : i ∉ (plan cfg env .load old n0).built.insts) :
    about i (plan cfg env .load old n0).acts = [.callReloadable i, .callExport i, .register i] := by
  have hv := clash_view hst env old n0
  generalize plan cfg env .load old n0 = p at *
  obtain ⟨k, ext, rel, tr⟩ := hv.trace
  have hacts := tr.acts
  have hext := tr.mid
  have hok := tr.ok
  have hbad := tr.bad
  have hrel : i ∉ rel := by
    intro hm
    by_cases hp : ∃ pm, .publish pm ∈ p.acts
    · rw [(hok hp).1] at hm; cases hm
    · exact hi ((hbad hp).mem_iff.mp hm)
  rw [hacts] at hr ⊢
  have hreg : n0 + 1 ≤ i ∧ i < n0 + 1 + k := by
    rcases List.mem_append.mp hr with hr | hr
    · rcases List.mem_append.mp hr with hr | hr
      · exact register_created.mp hr
      · exact absurd rfl (((hext _ hr).2.1 i).2)
    · obtain ⟨j, _, h⟩ := List.mem_map.mp hr; cases h
  have h1 := about_created i (n0 + 1) k
  rw [if_pos hreg] at h1
  unfold about at *
  rw [List.filter_append, List.filter_append, h1]
  have h2 : ext.filter (fun a => a.inst? == some i) = [] := by
    rw [List.filter_eq_nil_iff]
    intro a ha hc
    rcases (hext a ha).1 i (by simpa using hc) with h | h
    · exact hi h
    · omega
  have h3 : (rel.map Act.release).filter (fun a => a.inst? == some i) = [] := by
    rw [List.filter_eq_nil_iff]
    intro a ha hc
    obtain ⟨j, hj, rfl⟩ := List.mem_map.mp ha
    simp [Act.inst?] at hc
    exact hrel (hc ▸ hj)
  rw [h2, h3, List.append_nil, List.append_nil]
  rfl

/-- **C82.** A load that publishes a manager registers every selected plugin, survivor or not, and releases nothing. -/
theorem C82_all_registered {cfg : Config} {sps : GoMap StaticPlugin} (hst : cfg.static = some sps) (env : Env) (old : Option Manager) (n0 : Nat) {pm : Manager}
    (hp : .publish pm ∈ (plan cfg env .load old n0).acts) :
    ((plan cfg env .load old n0).acts.filter (fun a => match a with | .register _ => true | _ => false)).length = (selectedNames cfg sps).length ∧
    pm.plugins.length = (survivors cfg sps).size ∧ releases (plan cfg env .load old n0).acts = [] := by
  obtain ⟨e1, e2, e3, _⟩ := C32_exact hst env old n0 hp
  have hv := clash_view hst env old n0
  generalize plan cfg env .load old n0 = p at *
  obtain ⟨k, ext, rel, tr⟩ := hv.trace
  have hacts := tr.acts
  have hext := tr.mid
  have hok := tr.ok
  have hbad := tr.bad
  obtain ⟨hrel, hk⟩ := hok ⟨pm, hp⟩
  obtain ⟨sel, s0, s1, d, hsel, cr, done, ⟨s, rfl, fin, good, _⟩, _⟩ := hv.success hp
  have hsz := hk sel hsel
  subst hrel hsz
  have hkeys : sel.keys.Perm (selectedNames cfg sps) := by
    refine (List.perm_ext_iff_of_nodup sel.nodup (sps.nodup.filter _)).mpr ?_
    intro n
    change n ∈ sel.keys ↔ n ∈ selectedNames cfg sps
    rw [GoMap.mem_keys, mem_selectedNames]
    simp only [staticSelection_ok hsel, Selected]
  refine ⟨?_, ?_, ?_⟩
  · rw [hacts, List.map_nil, List.append_nil, List.filter_append]
    have h2 : ext.filter (fun a => match a with | .register _ => true | _ => false) = [] := by
      rw [List.filter_eq_nil_iff]
      intro a ha hc
      cases a <;> simp at hc
      exact ((hext _ ha).2.1 _).2 rfl
    have h1 : ∀ a n, ((createdActs a n).filter (fun a => match a with | .register _ => true | _ => false)).length = n := by
      intro a n
      induction n with
      | zero => rfl
      | succ n ih => rw [createdActs_succ, List.filter_append, List.length_append, ih]; rfl
    rw [h2, List.append_nil, h1, ← hkeys.length_eq]
    simp [GoMap.keys, GoMap.size]
  · have hperm : (s.pm.plugins.map (fun p => name2key p.name)).Perm ((survivors cfg sps).vals.map (fun sp => name2key sp.name)) := by
      refine (List.perm_ext_iff_of_nodup e3 (survivors_ok cfg sps)).mpr (fun k => ?_)
      simp only [List.mem_map]
      constructor
      · rintro ⟨q, hq, rfl⟩
        obtain ⟨n, sp, hs, hn, _⟩ := e2 q hq
        exact ⟨sp, GoMap.mem_vals.mpr ⟨n, survivors_iff.mpr hs⟩, by rw [hn]⟩
      · rintro ⟨sp, hsp, rfl⟩
        obtain ⟨n, hn⟩ := GoMap.mem_vals.mp hsp
        obtain ⟨q, hq, _, hn, _⟩ := e1 n sp (survivors_iff.mp hn)
        exact ⟨q, hq, by rw [hn]⟩
    have := hperm.length_eq
    simpa [GoMap.vals, GoMap.size] using this
  · rw [hacts, List.map_nil, List.append_nil, releases_append, releases_created]
    unfold releases
    rw [List.nil_append, List.filterMap_eq_nil_iff]
    intro a ha
    cases a <;> simp
    exact ((hext _ ha).2.1 _).1 rfl

/-- **C82.** A load that publishes nothing releases exactly the plugins in the manager it built, each once; those that did not survive are not among them. -/
theorem C82_failed_release {cfg : Config} {sps : GoMap StaticPlugin} (hst : cfg.static = some sps) (env : Env) (old : Option Manager) (n0 : Nat)
    (hno : ¬ ∃ pm, .publish pm ∈ (plan cfg env .load old n0).acts) :
    (releases (plan cfg env .load old n0).acts).Perm (plan cfg env .load old n0).built.insts := by
  have hv := clash_view hst env old n0
  generalize plan cfg env .load old n0 = p at *
  obtain ⟨k, ext, rel, tr⟩ := hv.trace
  have hacts := tr.acts
  have hext := tr.mid
  have hok := tr.ok
  have hbad := tr.bad
  refine List.Perm.trans ?_ (hbad hno)
  rw [hacts, releases_append, releases_append, releases_created]
  have h2 : releases ext = [] := by
    unfold releases
    rw [List.filterMap_eq_nil_iff]
    intro a ha
    cases a <;> simp
    exact ((hext _ ha).2.1 _).1 rfl
  have h3 : releases (rel.map Act.release) = rel := by
    unfold releases
    rw [List.filterMap_map]
    exact List.filterMap_some
  rw [h2, h3]
  exact .refl _

end

/-! ### Examples -/

namespace Demo

attribute [local instance] rt

/-- The program of `C32_violated`: plugins `a` and `A`. -/
def tcfg : Config := { cfg with static := some twins }

/-- `OnInit` of the plugins succeeds with every vault. -/
theorem twins_stable : InitStableBy (StaticOffers (survivors tcfg twins)) (survivors tcfg twins).keys := by
  intro n hn P hP v w
  cases hP with
  | @new sp r x h h1 h2 =>
    have hm : sp ∈ twins.vals := GoMap.mem_vals.mpr ⟨n, (survivors_iff.mp h).1.1⟩
    have : twins.vals = [⟨"A".toList, fun _ => false, code true 2 []⟩, ⟨"a".toList, fun _ => false, code true 1 []⟩] := by rfl
    rw [this] at hm
    rcases List.mem_cons.mp hm with rfl | hm
    · rfl
    · rcases List.mem_cons.mp hm with rfl | hm
      · rfl
      · cases hm

/-- The load succeeds: the hypotheses of C32_exact, C82_manager, C82_all_registered are met. -/
theorem twins_load : ∃ pm, .publish pm ∈ (plan tcfg env0 .load none 0).acts := by
  have : publishes (plan tcfg env0 .load none 0).acts ≠ [] := by
    simp only [ne_eq, ← List.isEmpty_iff, Bool.not_eq_true]; decide +kernel
  obtain ⟨pm, hpm⟩ := List.exists_mem_of_ne_nil _ this
  exact ⟨pm, mem_publishes.mp hpm⟩

/-- `a` survives, `A` does not. -/
example : (survivors tcfg twins).keys = ["a".toList] ∧ (selectedNames tcfg twins).length = 2 := by decide +kernel

/-- So the surviving plugins fit together, and the program with plugin `a` alone loads. -/
example : Fits (StaticOffers (survivors tcfg twins)) env0.data (survivors tcfg twins).keys ∧
    ∃ pm, .publish pm ∈ (plan (tcfg.survivorsOnly twins) env0 .load none 7).acts :=
  ⟨((C82_success_iff rfl env0 none 0 twins_stable).mp twins_load).2.2.2.1, ((C82_iff_survivors rfl env0 none none 0 7 twins_stable).mp twins_load).1⟩

/-- The hypotheses of C82_dropped are met: instance 1 (plugin `A`) is registered and not in the manager, instance 2 is. -/
example : Act.register 1 ∈ (plan tcfg env0 .load none 0).acts ∧ (plan tcfg env0 .load none 0).built.insts = [2] := by
  have h : (plan tcfg env0 .load none 0).acts.any (fun a => match a with | .register 1 => true | _ => false) = true ∧ (plan tcfg env0 .load none 0).built.insts = [2] := by decide +kernel
  refine ⟨?_, h.2⟩
  obtain ⟨a, ha, hc⟩ := List.any_eq_true.mp h.1
  split at hc
  · exact ha
  · cases hc

/-- The same program with a callback that fails: nothing is published, and only instance 2 is released. -/
example : publishes (plan { tcfg with hasCallback := true } { env0 with cbResult := .err } .load none 0).acts = [] ∧
    releases (plan { tcfg with hasCallback := true } { env0 with cbResult := .err } .load none 0).acts = [2] := by
  have : (publishes (plan { tcfg with hasCallback := true } { env0 with cbResult := .err } .load none 0).acts).isEmpty = true ∧
    releases (plan { tcfg with hasCallback := true } { env0 with cbResult := .err } .load none 0).acts = [2] := by decide +kernel
  exact ⟨List.isEmpty_iff.mp this.1, this.2⟩

end Demo

end Hotswap
