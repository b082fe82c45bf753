import Verif.Props.StaticLoads
import Verif.Props.EndToEnd
import Verif.Props.CliFuncs
import Verif.Props.CliTemplates
import Verif.Props.CliStaticGen
import Verif.Model.Cli.Registry

/-!
# From static builds to the loaded plugins: C71
-/

namespace Hotswap

open Cli

/-! ### Specification -/

/-- The map of static plugins holds exactly the plugins `bs`: under the name of its directory each plugin is there, has this name, has all required functions, and they are those of its package. -/
structure Registered (bs : List StaticBuild) (sps : GoMap StaticPlugin) : Prop where
  only : ∀ n sp, sps.get? n = some sp → ∃ b ∈ bs, b.name = n ∧ sp.name = n ∧ sp.code = b.code ∧ ∀ f ∈ requiredFunctions, sp.missing f = false
  all : ∀ b ∈ bs, ∃ sp, sps.get? b.name = some sp ∧ sp.code = b.code

/-- The plugin declares the nine functions. -/
def Cli.StaticBuild.Whole (b : StaticBuild) : Prop := b.pkgName ≠ [] ∧ ∀ f ∈ requiredFunctions, Declared b.dir f

/-- What the static plugin `n` contributes to a load. -/
inductive BuildOffers (bs : List StaticBuild) (n : Str) : Bool → Plugin → Prop
  | new {b : StaticBuild} {r : Bool} {x : Option Val} (hb : b ∈ bs) (hn : b.name = n) (h1 : b.code.reloadable = .ret r) (h2 : b.code.exportRet = .ret x) :
      BuildOffers bs n false { inst := 0, name := n, file := [], sha := 0, note := .ok, unchanged := false, syms := none,
                               code := b.code, deps := [], exported := x, reloadable := r, bound := [] }

/-- The plugins among `bs` that are to be loaded: all, or those of the whitelist. -/
def chosen (cfg : Config) (bs : List StaticBuild) : List StaticBuild := bs.filter (fun b => cfg.whitelist.isEmpty || cfg.whitelist.contains b.name)

section
variable [GoRuntime]

/-- The plugins `bs` have no fault. -/
structure BuildsLoadable (cfg : Config) (bs : List StaticBuild) (data : Nat) : Prop where
  /-- every plugin the whitelist names is there -/
  linked : ∀ n ∈ cfg.whitelist, ∃ b ∈ bs, b.name = n
  /-- `Reloadable` and `Export` return -/
  usable : ∀ b ∈ chosen cfg bs, (∃ r, b.code.reloadable = .ret r) ∧ ∃ x, b.code.exportRet = .ret x
  fits : Fits (BuildOffers bs) data ((chosen cfg bs).map StaticBuild.name)

/-! ### The registry -/

omit [GoRuntime] in
theorem importAlias_ne {n : Str} (h : n ≠ []) : importAlias n ≠ [] := by
  unfold importAlias
  split
  · decide +kernel
  · exact h

omit [GoRuntime] in
theorem linkFuncs_own {pkg : Str} {table : List (Str × Str)} (own other : Code) (h : ∀ f ∈ requiredFunctions, table.lookup f = some (pkg ++ '.' :: f)) : linkFuncs pkg table own other = own := by
  have h' : ∀ f : String, f.toList ∈ requiredFunctions → (table.lookup f.toList == some (pkg ++ '.' :: f.toList)) = true := by
    intro f hf
    rw [h _ hf]
    exact beq_self_eq_true _
  unfold linkFuncs
  simp only [h' "Reloadable" (by decide +kernel), h' "Export" (by decide +kernel), h' "Import" (by decide +kernel), h' "OnLoad" (by decide +kernel), h' "OnInit" (by decide +kernel),
    h' "OnFree" (by decide +kernel), h' "InvokeFunc" (by decide +kernel), h' "HotswapLiveFuncs" (by decide +kernel), h' "HotswapLiveTypes" (by decide +kernel), if_true]

omit [GoRuntime] in
theorem runStaticInit_ok (it : Iter) {b : StaticBuild} (hb : b.Whole) (m : GoMap StaticPlugin) :
    ∃ sp, runStaticInit it b m = some (m.insert b.name sp) ∧ sp.name = b.name ∧ sp.code = b.code ∧ ∀ f ∈ requiredFunctions, sp.missing f = false := by
  obtain ⟨fns, table, h1, _, h3, h4⟩ := C40_own_slots it b.dir (importAlias b.pkgName) (importAlias_ne hb.1) hb.2
  refine ⟨⟨b.name, fun s => (table.lookup s).isNone, linkFuncs (importAlias b.pkgName) table b.code b.other⟩, ?_, rfl, linkFuncs_own _ _ h4, ?_⟩
  · unfold runStaticInit
    simp only [h1, h3]
  · intro f hf
    simp only [h4 f hf]
    rfl

omit [GoRuntime] in
theorem runStaticInits_ok (it : Iter) : ∀ (bs : List StaticBuild) (m : GoMap StaticPlugin), (∀ b ∈ bs, b.Whole) → (bs.map StaticBuild.name).Nodup → (∀ b ∈ bs, m.get? b.name = none) →
    ∃ sps, runStaticInits it bs m = some sps ∧
      (∀ n sp, sps.get? n = some sp → m.get? n = some sp ∨ ∃ b ∈ bs, b.name = n ∧ sp.name = n ∧ sp.code = b.code ∧ ∀ f ∈ requiredFunctions, sp.missing f = false) ∧
      (∀ n sp, m.get? n = some sp → sps.get? n = some sp) ∧ ∀ b ∈ bs, ∃ sp, sps.get? b.name = some sp ∧ sp.code = b.code
  | [], m, _, _, _ => ⟨m, rfl, fun _ _ h => .inl h, fun _ _ h => h, fun b hb => by cases hb⟩
  | b :: r, m, hw, hn, hm => by
    rw [List.map_cons, List.nodup_cons] at hn
    obtain ⟨sp, h1, h2, h3, h4⟩ := runStaticInit_ok it (hw b (by simp)) m
    obtain ⟨sps, e1, e2, e3, e4⟩ := runStaticInits_ok it r (m.insert b.name sp) (fun b' hb' => hw b' (by simp [hb'])) hn.2 (by
      intro b' hb'
      rw [GoMap.get?_insert, if_neg]
      · exact hm b' (by simp [hb'])
      · intro he
        exact hn.1 (List.mem_map.mpr ⟨b', hb', by first | exact he | exact he.symm⟩))
    refine ⟨sps, ?_, ?_, ?_, ?_⟩
    · unfold runStaticInits; rw [h1]; exact e1
    · intro n sp' hg
      rcases e2 n sp' hg with h | ⟨b', hb', h⟩
      · rw [GoMap.get?_insert] at h
        split at h
        · rename_i he
          cases h
          refine .inr ⟨b, by simp, ?_⟩
          subst he
          exact ⟨rfl, h2, h3, h4⟩
        · exact .inl h
      · exact .inr ⟨b', by simp [hb'], h⟩
    · intro n sp' hg
      apply e3
      rw [GoMap.get?_insert, if_neg]
      · exact hg
      · intro he
        have := hm b (by simp)
        first
        | (rw [← he] at this; rw [this] at hg; cases hg)
        | (rw [he] at this; rw [this] at hg; cases hg)
    · intro b' hb'
      rcases List.mem_cons.mp hb' with rfl | hb'
      · exact ⟨sp, e3 _ _ (by rw [GoMap.get?_insert, if_pos rfl]), h3⟩
      · exact e4 b' hb'

omit [GoRuntime] in
/-- **C71.** If the plugins declare the nine functions and their directories have different names, the program starts, and the map it passes to `WithStaticPlugins` holds exactly these plugins with their own
functions, in whatever order the `init` functions run and whatever the iteration order of maps at generation. -/
theorem C71_registry (it : Iter) (bs : List StaticBuild) (hw : ∀ b ∈ bs, b.Whole) (hn : (bs.map StaticBuild.name).Nodup) :
    ∃ sps, runStaticInits it bs .empty = some sps ∧ Registered bs sps := by
  obtain ⟨sps, h1, h2, _, h4⟩ := runStaticInits_ok it bs .empty hw hn (fun _ _ => rfl)
  refine ⟨sps, h1, ?_, h4⟩
  intro n sp hg
  rcases h2 n sp hg with h | h
  · cases h
  · exact h

omit [GoRuntime] in
/-- **C71.** If a function is missing, the init file is not generated. -/
theorem C71_incomplete (it : Iter) (b : StaticBuild) (m : GoMap StaticPlugin) (hp : b.pkgName ≠ []) {f : Str} (hf : f ∈ requiredFunctions) (hd : ¬ Declared b.dir f) : runStaticInit it b m = none := by
  have hm : f ∈ mustDeclare (importAlias b.pkgName) := by unfold mustDeclare; rw [if_neg (importAlias_ne hp)]; exact hf
  obtain ⟨ms, h⟩ := (C40_missing_named it b.dir (importAlias b.pkgName)).2 ⟨f, hm, hd⟩
  unfold runStaticInit
  rw [h]

/-! ### Loading -/

omit [GoRuntime] in
theorem nodup_inj {α β : Type} {f : α → β} : ∀ {l : List α}, (l.map f).Nodup → ∀ {a b : α}, a ∈ l → b ∈ l → f a = f b → a = b
  | c :: r, h, a, b, ha, hb, he => by
    rw [List.map_cons, List.nodup_cons] at h
    rcases List.mem_cons.mp ha with rfl | ha <;> rcases List.mem_cons.mp hb with rfl | hb
    · rfl
    · exact absurd (List.mem_map.mpr ⟨b, hb, he.symm⟩) h.1
    · exact absurd (List.mem_map.mpr ⟨a, by assumption, he⟩) h.1
    · exact nodup_inj h.2 ha hb he

theorem Registered.ok {bs : List StaticBuild} {sps : GoMap StaticPlugin} (h : Registered bs sps) (hn : (bs.map (fun b => name2key b.name)).Nodup) : StaticOK sps := by
  unfold StaticOK GoMap.vals
  rw [List.map_map]
  have hk := sps.nodup
  rw [List.Nodup, List.pairwise_map] at hk ⊢
  refine List.Pairwise.imp_of_mem ?_ hk
  intro e e' he he' hne heq
  simp only [Function.comp] at heq
  obtain ⟨b, hb, hbn, hsp, _⟩ := h.only e.1 e.2 (GoMap.get?_eq_some.mpr he)
  obtain ⟨b', hb', hbn', hsp', _⟩ := h.only e'.1 e'.2 (GoMap.get?_eq_some.mpr he')
  rw [hsp, hsp', ← hbn, ← hbn'] at heq
  have := nodup_inj hn hb hb' heq
  subst this
  exact hne (hbn.symm.trans hbn')

omit [GoRuntime] in
theorem Registered.offers {bs : List StaticBuild} {sps : GoMap StaticPlugin} (h : Registered bs sps) (hn : (bs.map StaticBuild.name).Nodup) : StaticOffers sps = BuildOffers bs := by
  funext n u P
  apply propext
  constructor
  · rintro (@⟨sp, r, x, hg, h1, h2⟩)
    obtain ⟨b, hb, hbn, hsp, hc, _⟩ := h.only n sp hg
    rw [hsp, hc]
    rw [hc] at h1 h2
    exact .new hb hbn h1 h2
  · rintro (@⟨b, r, x, hb, hbn, h1, h2⟩)
    obtain ⟨sp, hg, hc⟩ := h.all b hb
    rw [hbn] at hg
    obtain ⟨_, _, _, hsp, _⟩ := h.only n sp hg
    rw [← hc] at h1 h2 ⊢
    have key := StaticOffers.new hg h1 h2
    rw [hsp] at key
    exact key

omit [GoRuntime] in
theorem Registered.names {bs : List StaticBuild} {sps : GoMap StaticPlugin} (h : Registered bs sps) (n : Str) : sps.get? n ≠ none ↔ ∃ b ∈ bs, b.name = n := by
  constructor
  · intro hne
    cases hg : sps.get? n with
    | none => exact absurd hg hne
    | some sp =>
      obtain ⟨b, hb, hbn, _⟩ := h.only n sp hg
      exact ⟨b, hb, hbn⟩
  · rintro ⟨b, hb, rfl⟩ he
    obtain ⟨sp, hg, _⟩ := h.all b hb
    rw [hg] at he; cases he

omit [GoRuntime] in
theorem Registered.chosen {bs : List StaticBuild} {sps : GoMap StaticPlugin} (h : Registered bs sps) (cfg : Config) (n : Str) :
    n ∈ selectedNames cfg sps ↔ n ∈ (Hotswap.chosen cfg bs).map StaticBuild.name := by
  rw [mem_selectedNames]
  unfold Hotswap.chosen
  rw [List.mem_map]
  constructor
  · rintro ⟨sp, hg, hw⟩
    obtain ⟨b, hb, hbn, _⟩ := h.only n sp hg
    refine ⟨b, ?_, hbn⟩
    rw [List.mem_filter, hbn]
    exact ⟨hb, by simpa [List.isEmpty_iff] using hw⟩
  · rintro ⟨b, hb, rfl⟩
    rw [List.mem_filter] at hb
    obtain ⟨sp, hg, _⟩ := h.all b hb.1
    exact ⟨sp, hg, by simpa [List.isEmpty_iff] using hb.2⟩

theorem Fits.congr {off : Str → Bool → Plugin → Prop} {data : Nat} {l l' : List Str} (he : ∀ n, n ∈ l ↔ n ∈ l') (h : Fits off data l) : Fits off data l' := by
  have hs : ∀ {n}, n ∈ l' → n ∈ l := fun hn => (he _).mpr hn
  refine ⟨fun f hf => h.hooks f (hs hf), ?_, ?_, ?_, fun f hf => h.live f (hs hf), fun f hf g hg => h.disjoint f (hs hf) g (hs hg)⟩
  · intro f hf P hP fd h1 h2
    obtain ⟨ha, g, hg, r⟩ := h.imports f (hs hf) P hP fd h1 h2
    exact ⟨ha, g, (he g).mp hg, r⟩
  · intro f hf P hP d hd
    obtain ⟨g, hg, r⟩ := h.keeps f (hs hf) P hP d hd
    exact ⟨g, (he g).mp hg, r⟩
  · obtain ⟨rank, hr⟩ := h.acyclic
    exact ⟨rank, fun f hf P hP fd h1 h2 g hg => hr f (hs hf) P hP fd h1 h2 g (hs hg)⟩

/-- The plugins `bs` have no fault if and only if the registered ones have none. -/
theorem Registered.loadable {bs : List StaticBuild} {sps : GoMap StaticPlugin} (h : Registered bs sps) (hn : (bs.map StaticBuild.name).Nodup) (cfg : Config) (data : Nat) :
    StaticLoadable cfg sps data ↔ BuildsLoadable cfg bs data := by
  constructor
  · rintro ⟨hf, hl, hu⟩
    refine ⟨fun n hw => (h.names n).mp (hl n hw), ?_, ?_⟩
    · intro b hb
      obtain ⟨sp, hs⟩ := mem_selectedNames.mp ((h.chosen cfg b.name).mpr (List.mem_map.mpr ⟨b, hb, rfl⟩))
      obtain ⟨_, h1, h2⟩ := hu _ _ hs
      obtain ⟨sp', hg, hc⟩ := h.all b (List.mem_filter.mp hb).1
      have hsg := hs.1
      rw [hg] at hsg
      injection hsg with hsg
      subst hsg
      rw [hc] at h1 h2
      exact ⟨h1, h2⟩
    · rw [← h.offers hn]
      exact hf.congr (h.chosen cfg)
  · rintro ⟨hl, hu, hf⟩
    refine ⟨?_, fun n hw => (h.names n).mpr (hl n hw), ?_⟩
    · rw [h.offers hn]
      exact hf.congr (fun n => (h.chosen cfg n).symm)
    · intro n sp hs
      obtain ⟨b, hb, hbn, hsp, hc, hm⟩ := h.only n sp hs.1
      obtain ⟨b', hb', hbn'⟩ := List.mem_map.mp ((h.chosen cfg n).mp (mem_selectedNames.mpr ⟨sp, hs⟩))
      have := nodup_inj hn hb (List.mem_filter.mp hb').1 (hbn.trans hbn'.symm)
      subst this
      rw [hc]
      exact ⟨hm, hu _ hb'⟩

theorem nodup_names {bs : List StaticBuild} (h : (bs.map (fun b => name2key b.name)).Nodup) : (bs.map StaticBuild.name).Nodup := by
  rw [List.Nodup, List.pairwise_map] at h ⊢
  exact h.imp (fun hne he => hne (by rw [he]))

/-- **C71.** From the sources of static plugins to the running program. The plugins `bs` declare the nine functions and their directories have different names (ignoring case); the program is
compiled with the init files of all of them and loads what they have registered. Then `LoadPlugins` publishes a manager exactly when the extension newer does not panic, the chosen plugins have no fault,
and the callback succeeds. -/
theorem C71_success_iff (it : Iter) {bs : List StaticBuild} (hw : ∀ b ∈ bs, b.Whole) (hn : (bs.map (fun b => name2key b.name)).Nodup) {cfg : Config}
    (hst : cfg.static = runStaticInits it bs .empty) {m : Machine} (h : Reachable cfg m) (env : Env)
    (hstable : ∀ b ∈ chosen cfg bs, ∀ v w, (b.code.onInit v).1 = (b.code.onInit w).1) :
    (∃ pm, .publish pm ∈ (plan cfg env .load m.current m.next).acts) ↔
      (cfg.hasNewExt = true → env.ext ≠ .panics) ∧ BuildsLoadable cfg bs env.data ∧ (cfg.hasCallback = true → env.cbResult = .ok) := by
  have hnn := nodup_names hn
  obtain ⟨sps, h1, hr⟩ := C71_registry it bs hw hnn
  rw [h1] at hst
  have hcfg : cfg.OK := by
    intro sps' he
    rw [hst] at he
    injection he with he
    subst he
    exact hr.ok hn
  rw [← hr.loadable hnn]
  refine C69_static_success_iff hcfg hst h env ?_
  intro n hsel P hP
  rw [hr.offers hnn] at hP
  cases hP with
  | @new b r x hb hbn _ _ =>
    obtain ⟨b', hb', hbn'⟩ := List.mem_map.mp ((hr.chosen cfg n).mp hsel)
    have := nodup_inj hnn hb (List.mem_filter.mp hb').1 (hbn.trans hbn'.symm)
    subst this
    exact hstable _ hb'

omit [GoRuntime] in
/-- **C71, violated for several plugins.** One `hotswap build --staticLinking` (as in the README) per plugin into the same output directory leaves only the plugin built last: whatever plugins `bs` a
program is compiled with whose init files are in the output directory afterwards, it registers no plugin of another name. -/
theorem C71_violated_last_only (it : Iter) (builds : List (Str × Cli.Sources × List RelPath)) (out0 : List RelPath) (name : Str) (src : Cli.Sources) (plugin : List RelPath)
    (hlast : builds.getLast? = some (name, src, plugin)) (hok : ∀ out, (genStaticPlugin name src ⟨plugin, out⟩).2 = true) (hname : name ≠ [] ∧ '\n' ∉ name)
    {bs : List StaticBuild} (hw : ∀ b ∈ bs, b.Whole ∧ b.name ≠ [] ∧ '\n' ∉ b.name) (hn : (bs.map StaticBuild.name).Nodup)
    (hfiles : ∀ b ∈ bs, initFile b.name ∈ builds.foldl (fun out b => (genStaticPlugin b.1 b.2.1 ⟨b.2.2, out⟩).1.output) out0) :
    ∃ sps, runStaticInits it bs .empty = some sps ∧ ∀ n, sps.get? n ≠ none → n = name := by
  obtain ⟨sps, h1, hr⟩ := C71_registry it bs (fun b hb => (hw b hb).1) hn
  refine ⟨sps, h1, ?_⟩
  intro n hne
  obtain ⟨b, hb, rfl⟩ := (hr.names n).mp hne
  exact (C44_last_only builds out0 name src plugin hlast hok b.name (hw b hb).2.1 (hw b hb).2.2 hname).mp (hfiles b hb)

end

namespace Demo

attribute [local instance] rt

/-- Two plugins from sources; the second one is in a `main` package. -/
def builds : List StaticBuild := [⟨"b".toList, "b".toList, demoDir, code true 2 [], code false 9 []⟩, ⟨"a".toList, "main".toList, demoDir, code true 1 [], code false 9 []⟩]

def bcfg : Config := { cfg with static := runStaticInits Iter.rev builds .empty }

theorem builds_whole : ∀ b ∈ builds, b.Whole := by
  intro b hb
  rcases List.mem_cons.mp hb with rfl | hb
  · exact ⟨by decide, by decide +kernel⟩
  · rcases List.mem_cons.mp hb with rfl | hb
    · exact ⟨by decide, by decide +kernel⟩
    · cases hb

/-- The hypotheses of the theorem are met, and both sides hold: the program loads the two plugins. -/
example : (builds.map (fun b => name2key b.name)).Nodup ∧ BuildsLoadable bcfg builds env0.data := by
  have hn : (builds.map (fun b => name2key b.name)).Nodup := by decide +kernel
  refine ⟨hn, ?_⟩
  refine ((C71_success_iff Iter.rev builds_whole hn rfl .init env0 ?_).mp ?_).2.1
  · intro b hb
    have hb := (List.mem_filter.mp hb).1
    rcases List.mem_cons.mp hb with rfl | hb
    · intro v w; rfl
    · rcases List.mem_cons.mp hb with rfl | hb
      · intro v w; rfl
      · cases hb
  · have : publishes (plan bcfg env0 .load Machine.init.current Machine.init.next).acts ≠ [] := by
      simp only [ne_eq, ← List.isEmpty_iff, Bool.not_eq_true]; decide +kernel
    obtain ⟨pm, hpm⟩ := List.exists_mem_of_ne_nil _ this
    exact ⟨pm, mem_publishes.mp hpm⟩

/-- If it cannot be compiled, there is nothing to load. -/
example : (runStaticInit Iter.id ⟨"b".toList, "b".toList, demoDir.drop 1, code true 2 [], code true 2 []⟩ .empty).isNone = true := by decide +kernel

end Demo

end Hotswap
