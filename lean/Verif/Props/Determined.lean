import Verif.Props.Opens
import Verif.Spec.Determined

/-!
# What decides whether a load succeeds: C68
-/

namespace Hotswap

section
variable [GoRuntime]

omit [GoRuntime] in
theorem initOK_mem {v : Vault} {l : List Plugin} (h : initOK v l) {p : Plugin} (hp : p ∈ l) : ∃ w, (p.code.onInit w).1 = .ok := by
  induction l generalizing v with
  | nil => cases hp
  | cons q r ih =>
    rcases List.mem_cons.mp hp with rfl | hp
    · exact ⟨v, h.1⟩
    · exact ih h.2 hp

/-- If the later phases succeed, everything fits. -/
theorem Late.fits {off : Str → Bool → Plugin → Prop} {old : Option Manager} {n0 : Nat} {files : List Str} {it : Iter} {data : Nat} {s1 s : LoadSt}
    (hlate : Late off old n0 files s.pm.pluginMap) (fin : Finished s1 it data s) (good : GoodManager s.next s.pm)
    (hst : InitStableBy off files) : Fits off data files := by
  have hmem : ∀ {k : Str} {P : Plugin}, s.pm.pluginMap.get? k = some P → P ∈ s.pm.ordered := fun hP =>
    good.ordered.mem_iff.mpr (GoMap.mem_vals.mpr ⟨_, hP⟩)
  have hfresh : ∀ {k : Str} {P : Plugin}, s.pm.pluginMap.get? k = some P → P.unchanged = false → P ∈ freshOnes s.pm.ordered := fun hP hu => by
    unfold freshOnes; rw [List.mem_filter]; exact ⟨hmem hP, by simp [hu]⟩
  refine ⟨?_, ?_, ?_, ?_, ?_, ?_⟩
  · -- hooks
    intro f hf P hP
    obtain ⟨Q, hQ, hu, hm⟩ := hlate.back f hf _ P hP
    rw [← hm.code]
    have hmf := hfresh hQ hu
    refine ⟨(fin.ok.fresh _ Q hQ hu).2.2.2, fin.onLoad Q hmf, ?_⟩
    obtain ⟨v0, _, _, hi, _⟩ := fin.log
    obtain ⟨w, hw⟩ := initOK_mem hi hmf
    intro v
    rw [hm.code] at hw ⊢
    rw [hst f hf P hP v w]; exact hw
  · -- imports
    intro f hf P hP fd hfd himp
    obtain ⟨Q, hQ, hu, hm⟩ := hlate.back f hf _ P hP
    have hin : fd ∈ importFields Q := by
      refine mem_importFields.mpr ⟨?_, himp⟩
      unfold ImportField at *
      rw [hm.code]; exact hfd
    obtain ⟨dep, hdep, hok⟩ := (fin.ok.fresh _ Q hQ hu).1 fd hin
    obtain ⟨g, hg, b, hb, hmb⟩ := hlate.of _ dep hdep
    refine ⟨hok.named, g, hg, dep.unchanged, b, hb, ?_, ?_, ?_⟩
    · rw [← hmb.name]; exact hlate.keyed _ _ hdep
    · intro hr
      rw [← hmb.reloadable]; exact hok.stable (by rw [hm.reloadable]; exact hr)
    · intro v hv hnil
      have hbv : boundValue dep = some v := by
        unfold boundValue
        rw [hmb.exported, hv, if_neg (by rw [hnil]; simp)]
      exact ⟨hok.typed v hbv, hok.settable (by rw [hbv]; simp)⟩
  · -- keeps
    intro f hf P hP d hd
    obtain ⟨Q, hQ, hu, hm⟩ := hlate.back f hf _ P hP
    rw [← hm.deps hu] at hd
    obtain ⟨R, hR, hRu⟩ := fin.ok.rebuilt _ Q hQ hu d hd
    obtain ⟨g, hg, b, hb, hmb⟩ := hlate.of _ R hR
    rw [hRu] at hb
    exact ⟨g, hg, b, hb, by rw [← hmb.name]; exact hlate.keyed _ _ hR⟩
  · -- acyclic
    refine ⟨posOf s.pm.ordered, ?_⟩
    intro f hf P hP fd hfd himp g hg Q hQ hn
    obtain ⟨P', hP', hu, hm⟩ := hlate.back f hf _ P hP
    obtain ⟨Q', hQ', hQm⟩ := hlate.find hg hQ
    have hin : fd ∈ importFields P' := by
      refine mem_importFields.mpr ⟨?_, himp⟩
      unfold ImportField at *
      rw [hm.code]; exact hfd
    rw [hn] at hQ'
    have hd : Q'.name ∈ P'.deps := by
      rw [(fin.ok.fresh _ P' hP' hu).2.1, List.mem_filterMap]
      exact ⟨fd, hin, by rw [hQ']; rfl⟩
    have hkey := hlate.keyed _ _ hQ'
    have := good.pos hP' hd (by rw [hkey]; exact hQ')
    rw [hQm.2.name, hm.name] at this
    exact this
  · -- live
    intro f hf P hP
    obtain ⟨Q, hQ, hu, hm⟩ := hlate.back f hf _ P hP
    rw [← hm.code]
    exact ⟨good.liveFuncs.1 Q (hmem hQ), good.liveTypes.1 Q (hmem hQ)⟩
  · -- disjoint
    intro f hf g hg hne u v P Q hP hQ _
    obtain ⟨P', hP', hu, hm⟩ := hlate.back f hf _ P hP
    obtain ⟨Q', hQ', hv, hm'⟩ := hlate.back g hg _ Q hQ
    have hpq : P' ≠ Q' := by
      rintro rfl
      exact hne (hlate.src f hf g hg u v P Q hP hQ (by rw [← hm.name, ← hm'.name]))
    rw [← hm.code, ← hm'.code]
    exact ⟨live_disjoint (live := (·.code.liveFuncs)) good.liveFuncs (hmem hP') (hmem hQ') hpq,
      live_disjoint (live := (·.code.liveTypes)) good.liveTypes (hmem hP') (hmem hQ') hpq⟩

/-- If a load succeeds, the set of files has no fault. -/
theorem loadable_of_done {env : Env} {old : Option Manager} {n0 : Nat} {files : List Str} {s0 s1 s : LoadSt}
    (hgood : ∀ om, old = some om → GoodManager n0 om)
    (done : LoadDone old n0 env.it env.fs files env.data s0 s1 s) (hcopy : ∀ f ∈ files, NotKept env.fs old f → env.fs.copyOk f = true)
    (hst : InitStable env old files) : Loadable env old files := by
  refine ⟨(late_of hgood done.stage1 done.fin.frame.same).fits done.fin done.good hst, done.stage1.nodup, ?_, ?_⟩
  · -- readable
    intro f hf hn
    obtain ⟨data, p, hr, _⟩ := done.stage1.fate f hf
    rw [hn] at hr; cases hr
  · -- usable
    intro f hf hn
    obtain ⟨data, p, hr, hp, hfate⟩ := done.stage1.fate f hf
    have hb : BuiltFrom env.fs f data p := by
      cases hfate with
      | notReloadable om oldP h hk hrel => have := (hn om oldP data h hk hr).1; rw [hrel] at this; cases this
      | unchanged om oldP h hk hrel hs => exact absurd hs (hn om oldP data h hk hr).2
      | renewed _ hb => exact hb
    obtain ⟨syms, ho, _, hl⟩ := hb.image
    exact ⟨by have := hb.lower; rw [hb.name] at this; exact this, hcopy f hf hn, syms, p.code, ho, hl, ⟨_, hb.faithful.1⟩, ⟨_, hb.faithful.2⟩⟩

/-- The whitelist test, spelled out. -/
theorem whitelist_none_iff {wl : List Str} {entries : List DirEntry} (hreal : RealEntries entries) :
    whitelistError wl (qualifying wl entries) = none ↔ wl.Nodup ∧ ∀ v ∈ wl, Present entries v := by
  constructor
  · intro hw
    by_cases hwl : wl = []
    · subst hwl; exact ⟨.nil, fun v h => by cases h⟩
    · unfold whitelistError at hw
      rw [if_neg (by simpa using hwl)] at hw
      simp only at hw
      split at hw
      · cases hw
      · rename_i hh
        have hp := (found_perm hwl).mp (by simpa using hh)
        refine ⟨hp.nodup_iff.mp eraseDups_nodup, ?_⟩
        intro v hv
        exact (present_iff hreal hv).mp (hp.mem_iff.mpr hv)
  · rintro ⟨h1, h2⟩; exact whitelist_ok hreal h1 h2

/-- **C68.** Exactly when a dynamic call publishes a manager: the extension newer does not panic, some file qualifies, the whitelist is satisfied, the set of files has no fault and the callbacks succeed. None of these conditions mentions the
iteration order of maps. (`InitStable` is needed: see the example below.) -/
theorem C68_success_iff {cfg : Config} (hcfg : cfg.OK) (hst : cfg.static = none) {m : Machine} (h : Reachable cfg m) (env : Env) (k : Kind)
    {absDir : Str} {entries : List DirEntry} (hdir : env.dir = some (absDir, entries)) (hreal : RealEntries entries)
    (hstable : InitStable env m.current (listedFiles cfg absDir entries)) :
    (∃ pm, .publish pm ∈ (plan cfg env k m.current m.next).acts) ↔
      (cfg.hasNewExt = true → env.ext ≠ .panics) ∧ (∃ e ∈ entries, Considered cfg.whitelist e) ∧ (cfg.whitelist.Nodup ∧ ∀ v ∈ cfg.whitelist, Present entries v) ∧
        Loadable env m.current (listedFiles cfg absDir entries) ∧ ∀ c ∈ callbacks cfg env k, c.2 = .ok := by
  constructor
  · rintro ⟨pm, hp⟩
    have hcopy : ∀ f ∈ listedFiles cfg absDir entries, NotKept env.fs m.current f → env.fs.copyOk f = true := by
      intro f hf hn
      have := ((C15_opened hcfg hst h env hp hdir).1 f).mpr ⟨hf, hn⟩
      unfold openedFiles at this
      obtain ⟨a, ha, he⟩ := List.mem_filterMap.mp this
      cases a <;> simp only [Option.some.injEq, reduceCtorEq] at he
      subst he
      obtain ⟨_, a, es, _, _, _, _, hc⟩ := C15_opens_only cfg env k m ha
      exact hc
    have hv := view hcfg h env k
    have hgood := good_old hcfg h
    generalize plan cfg env k m.current m.next = p at *
    have hnot : ∀ {pm : Manager} {s : LoadSt}, (∀ a ∈ s.acts, ∀ q, a ≠ Act.publish q) → .publish pm ∈ s.acts → False := fun h1 h2 => h1 _ h2 _ rfl
    have hall := hv.dynamic hst hp
    obtain ⟨a, es, s0, s1, s, d, hd, hwl, cr, done, hdet, hres, rfl, _⟩ := hall
    rw [hdir] at hd; cases hd
    have hok := loadable_of_done hgood done hcopy hstable
    cases hv with
    | listErr e dyn why acts res => rw [res] at hres; cases hres
    | empty a b dyn dir wl hnil acts res => rw [acts] at hp; cases k <;> simp [countActs] at hp
    | escaped ext panics acts res => rw [res] at hres; cases hres
    | dynErr a b dyn dir wl hsome s0 sb f cr failed body acts res => rw [res] at hres; cases hres
    | dynCb a b dyn dir wl hsome s0 s1 s cr done cbs n o rest split bad good acts res => rw [res] at hres; cases hres
    | dynOk a b dyn dir wl hsome s0 s1 s d cr done good details acts res =>
      rw [hdir] at dir; cases dir
      refine ⟨?_, ?_, (whitelist_none_iff hreal).mp wl, hok, good⟩
      · intro he hx
        have := cr.ext
        rw [if_pos he, hx] at this; cases this
      · obtain ⟨f, hf⟩ := List.exists_mem_of_ne_nil _ hsome
        obtain ⟨e, he, hc, _⟩ := (C30_considered cfg absDir entries f).mp hf
        exact ⟨e, he, hc⟩
    | staticMissing sps e st => rw [hst] at st; cases st
    | staticErr sps sel st => rw [hst] at st; cases st
    | staticCb sps sel st => rw [hst] at st; cases st
    | staticOk sps sel st => rw [hst] at st; cases st
  · rintro ⟨h1, h2, ⟨h3, h4⟩, h5, h6⟩
    obtain ⟨d, pm, _, hp⟩ := C54_loadable_succeeds hcfg hst h env k h1 h6 hdir hreal h3 h4 h2 h5
    exact ⟨pm, hp⟩

theorem Env.withOrder_loadable {env : Env} {it : Iter} {old : Option Manager} {files : List Str} (h : Loadable env old files) : Loadable (env.withOrder it) old files :=
  ⟨h.toFits, h.names, h.readable, h.usable⟩

/-- **C68.** Whether a dynamic call succeeds does not depend on the iteration order of maps. -/
theorem C68_order_irrelevant {cfg : Config} (hcfg : cfg.OK) (hst : cfg.static = none) {m : Machine} (h : Reachable cfg m) (env : Env) (it : Iter) (k : Kind)
    {absDir : Str} {entries : List DirEntry} (hdir : env.dir = some (absDir, entries)) (hreal : RealEntries entries)
    (hstable : InitStable env m.current (listedFiles cfg absDir entries)) :
    (∃ pm, .publish pm ∈ (plan cfg env k m.current m.next).acts) ↔ ∃ pm, .publish pm ∈ (plan cfg (env.withOrder it) k m.current m.next).acts := by
  rw [C68_success_iff hcfg hst h env k hdir hreal hstable, C68_success_iff hcfg hst h (env.withOrder it) k (absDir := absDir) (entries := entries) hdir hreal hstable]
  constructor
  · rintro ⟨h1, h2, h3, h4, h5⟩; exact ⟨h1, h2, h3, Env.withOrder_loadable h4, h5⟩
  · rintro ⟨h1, h2, h3, h4, h5⟩; exact ⟨h1, h2, h3, Env.withOrder_loadable (env := env.withOrder it) (it := env.it) h4, h5⟩

/-- Two loads with the same offers give the plugin under a key the same contents. -/
theorem Late.same {off : Str → Bool → Plugin → Prop} {old : Option Manager} {n0 : Nat} {files : List Str} {it it' : Iter} {data data' : Nat} {s1 s s1' s' : LoadSt}
    (hlate : Late off old n0 files s.pm.pluginMap) (hlate' : Late off old n0 files s'.pm.pluginMap) (fin : Finished s1 it data s) (fin' : Finished s1' it' data' s')
    {key : Str} {P : Plugin} (hP : s.pm.pluginMap.get? key = some P) : ∃ Q, s'.pm.pluginMap.get? key = some Q ∧ SamePlugin P Q := by
  have names : ∀ {key : Str} {P : Plugin}, s.pm.pluginMap.get? key = some P →
      ∃ Q a, s'.pm.pluginMap.get? key = some Q ∧ P.unchanged = Q.unchanged ∧ MadeOf P a ∧ MadeOf Q a := by
    intro key P hP
    obtain ⟨f, hf, a, ha, hma⟩ := hlate.of key P hP
    obtain ⟨Q, hQ, hu, hmb⟩ := hlate'.back f hf _ a ha
    exact ⟨Q, a, by rw [← hlate.keyed key P hP, hma.name]; exact hQ, hu.symm, hma, hmb⟩
  obtain ⟨Q, a, hQ, hu, hma, hmb⟩ := names hP
  refine ⟨Q, hQ, ⟨hma.name.trans hmb.name.symm, hma.file.trans hmb.file.symm, hma.sha.trans hmb.sha.symm, hma.code.trans hmb.code.symm, ?_, hma.exported.trans hmb.exported.symm,
    hma.reloadable.trans hmb.reloadable.symm, hu, fun hk => (hma.inst hk).trans (hmb.inst (by rw [← hu]; exact hk)).symm⟩⟩
  cases hPu : P.unchanged with
  | true => rw [hma.deps hPu, hmb.deps (by rw [← hu]; exact hPu)]
  | false =>
    have r1 := fin.ok.fresh _ P hP hPu
    have r2 := fin'.ok.fresh _ Q hQ (by rw [← hu]; exact hPu)
    rw [r1.2.1, r2.2.1]
    have hif : importFields P = importFields Q := by unfold importFields; rw [hma.code, hmb.code]
    rw [← hif]
    refine List.filterMap_congr ?_
    intro fd hfd
    obtain ⟨dep, hdep, _⟩ := r1.1 fd hfd
    obtain ⟨dep', b, hdep', _, hmc, hmd⟩ := names hdep
    rw [hdep, hdep']
    simp only [Option.map_some]
    rw [hmc.name, hmd.name]

theorem samePlugins_of {pm pm' : Manager} (hfwd : ∀ {key : Str} {P : Plugin}, pm.pluginMap.get? key = some P → ∃ Q, pm'.pluginMap.get? key = some Q ∧ SamePlugin P Q)
    (hbwd : ∀ {key : Str} {P : Plugin}, pm'.pluginMap.get? key = some P → ∃ Q, pm.pluginMap.get? key = some Q ∧ SamePlugin P Q) : SamePlugins pm pm' := by
  intro name
  unfold Manager.findPlugin
  cases hP : pm.pluginMap.get? (name2key name) with
  | none =>
    cases hQ : pm'.pluginMap.get? (name2key name) with
    | none => trivial
    | some Q => obtain ⟨P, hP', _⟩ := hbwd hQ; rw [hP] at hP'; cases hP'
  | some P =>
    obtain ⟨Q, hQ, hs⟩ := hfwd hP
    rw [hQ]; exact hs

/-- Both loads give the plugin under a key the same contents. -/
theorem same_half {cfg : Config} (hcfg : cfg.OK) (hst : cfg.static = none) {m : Machine} (h : Reachable cfg m) (env : Env) (it : Iter) {k : Kind} {pm pm' : Manager}
    (hp : .publish pm ∈ (plan cfg env k m.current m.next).acts) (hp' : .publish pm' ∈ (plan cfg (env.withOrder it) k m.current m.next).acts)
    {key : Str} {P : Plugin} (hP : pm.pluginMap.get? key = some P) : ∃ Q, pm'.pluginMap.get? key = some Q ∧ SamePlugin P Q := by
  have hgood := good_old hcfg h
  obtain ⟨absDir, entries, s0, s1, s, d, hd, _, cr, done, _, _, rfl, _⟩ := (view hcfg h env k).dynamic hst hp
  obtain ⟨absDir', entries', s0', s1', s', d', hd', _, cr', done', _, _, rfl, _⟩ := (view hcfg h (env.withOrder it) k).dynamic hst hp'
  change env.dir = _ at hd'
  rw [hd] at hd'; cases hd'
  exact (late_of hgood done.stage1 done.fin.frame.same).same (late_of hgood done'.stage1 done'.fin.frame.same) done.fin done'.fin hP

/-- **C68.** And what it loads does not depend on it either: the two managers have the same plugins (except for the identity of new instances), and the two `Details` have the same entries. -/
theorem C68_same_plugins {cfg : Config} (hcfg : cfg.OK) (hst : cfg.static = none) {m : Machine} (h : Reachable cfg m) (env : Env) (it : Iter) {k : Kind} {pm pm' : Manager}
    (hp : .publish pm ∈ (plan cfg env k m.current m.next).acts) (hp' : .publish pm' ∈ (plan cfg (env.withOrder it) k m.current m.next).acts) :
    SamePlugins pm pm' ∧
    ∃ d d', (plan cfg env k m.current m.next).res = .ok d ∧ (plan cfg (env.withOrder it) k m.current m.next).res = .ok d' ∧ ∀ file, d.get? file = d'.get? file := by
  have hgood := good_old hcfg h
  have hfwd : ∀ {key : Str} {P : Plugin}, pm.pluginMap.get? key = some P → ∃ Q, pm'.pluginMap.get? key = some Q ∧ SamePlugin P Q := same_half hcfg hst h env it hp hp'
  have hbwd : ∀ {key : Str} {P : Plugin}, pm'.pluginMap.get? key = some P → ∃ Q, pm.pluginMap.get? key = some Q ∧ SamePlugin P Q :=
    same_half hcfg hst h (env.withOrder it) env.it hp' hp
  refine ⟨samePlugins_of hfwd hbwd, ?_⟩
  · obtain ⟨d, hd, a1, a2, _⟩ := C16_details hcfg hst h env hp
    obtain ⟨d', hd', b1, b2, _⟩ := C16_details hcfg hst h (env.withOrder it) hp'
    refine ⟨d, d', hd, hd', ?_⟩
    obtain ⟨_, _, s0, s1, s, _, _, _, _, done, _, _, rfl, _⟩ := (view hcfg h env k).dynamic hst hp
    obtain ⟨_, _, s0', s1', s', _, _, _, _, done', _, _, rfl, _⟩ := (view hcfg h (env.withOrder it) k).dynamic hst hp'
    have key : ∀ P ∈ s.pm.plugins, d'.get? P.file = some (statusSpec m P) ∧ d.get? P.file = some (statusSpec m P) := by
      intro P hPm
      obtain ⟨kk, hP⟩ := GoMap.mem_vals.mp (done.good.ordered.mem_iff.mp hPm)
      obtain ⟨Q, hQ, hs⟩ := hfwd hP
      have hQm : Q ∈ s'.pm.plugins := done'.good.ordered.mem_iff.mpr (GoMap.mem_vals.mpr ⟨_, hQ⟩)
      have e1 := isNew_iff (fun om ho => (hgood om ho).toSoundManager) done.body.origin hP
      have e2 := isNew_iff (fun om ho => (hgood om ho).toSoundManager) done'.body.origin hQ
      have : statusSpec m P = statusSpec m Q := by
        unfold statusSpec
        rw [e1, e2, hs.unchanged, hs.reloadable]
      refine ⟨?_, a1 P hPm⟩
      rw [this, hs.file]; exact b1 Q hQm
    intro file
    cases hf : d.get? file with
    | some st =>
      obtain ⟨P, hPm, rfl⟩ := a2 _ _ hf
      obtain ⟨k1, k2⟩ := key P hPm
      rw [k1, ← k2, hf]
    | none =>
      cases hf' : d'.get? file with
      | none => rfl
      | some st =>
        obtain ⟨Q, hQm, rfl⟩ := b2 _ _ hf'
        obtain ⟨kk, hQ⟩ := GoMap.mem_vals.mp (done'.good.ordered.mem_iff.mp hQm)
        obtain ⟨P, hP, hs⟩ := hbwd hQ
        have hPm : P ∈ s.pm.plugins := done.good.ordered.mem_iff.mpr (GoMap.mem_vals.mpr ⟨_, hP⟩)
        have := (key P hPm).2
        rw [← hs.file, hf] at this; cases this

end

/-! ### Examples -/

namespace Demo

attribute [local instance] rt

/-- `OnInit` of the plugins of the example program succeeds with every vault, so that the hypotheses of `C68_success_iff` and `C68_order_irrelevant` are met. -/
example : InitStable env1 Machine.init.current (listedFiles cfg "/p".toList (both.map (fun n => ⟨n, false⟩))) := by
  rw [ex_files]
  intro f hf P hP v w
  obtain ⟨_, h1⟩ := ex_loadable.hooks f hf P hP
  rw [h1.2 v, h1.2 w]

/-- The hypotheses of `C68_same_plugins` are met, and the orders do differ: both calls succeed. -/
example : (details? (plan cfg env1 .load none 0).res).isSome = true ∧ (details? (plan cfg (env1.withOrder .rev) .load none 0).res).isSome = true := by
  decide +kernel

/-- A plugin whose `OnInit` fails unless the plugin number 1 has left something in the data bag, although it does not import that plugin. -/
def needy : Code := { code true 2 [] with onInit := fun v => if (v.dataBag.get? "1".toList).isSome then (.ok, v) else (.err, v) }

/-- `InitStable` is needed: two plugins that do not import each other, one of which looks in its `OnInit` for what the other has stored, load in one iteration order and not in the other. -/
theorem C68_order_matters :
    (details? (plan cfg (env both (fs 10 20 goodBase needy)) .load none 0).res).isSome = true ∧
    error? (plan cfg ((env both (fs 10 20 goodBase needy)).withOrder .rev) .load none 0).res = some (.hookErr "app".toList) := by
  decide +kernel

end Demo

end Hotswap
