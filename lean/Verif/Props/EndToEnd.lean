import Verif.Props.Complete
import Verif.Props.CliLive

/-!
# From the sources of plugins to the vault: C70
-/

namespace Hotswap

open Cli

section
variable [GoRuntime]

/-- The sources of a plugin: the live prefix of the build, its packages, and the values its declarations have at run time: `fn dir n` the function `n` of the package in
`dir`, `ty dir n` the function that makes a new `n` of that package. -/
structure Sources where
  livePrefix : Str
  pkgs : List Pkg
  fn : Str → Str → Val
  ty : Str → Str → Val

/-- The plugin was built by hotswap from these sources: the build accepted them, at start-up the generated `init` functions ran in some order, and the generated
`HotswapLiveFuncs` and `HotswapLiveTypes` (hotswapMain.tpl) return the maps they filled. -/
def BuiltFromSources (src : Sources) (code : Code) : Prop :=
  ∃ st order b lf lt, collectLive src.livePrefix src.pkgs = .ok st ∧ order.Perm st.livePackages ∧ runInits st order = some b ∧
    code.liveFuncs = .ret (some lf) ∧ (∀ n, lf.get? n = (b.liveFuncs.get? n).map (fun dir => src.fn dir n)) ∧
    code.liveTypes = .ret (some lt) ∧ (∀ n, lt.get? n = (b.liveTypes.get? n).map (fun dir => src.ty dir n))

/-- What `HotswapLiveFuncs` and `HotswapLiveTypes` of a built plugin return: what the sources declare. -/
theorem built_declares {src : Sources} {p : Plugin} (h : BuiltFromSources src p.code) (name : Str) (x : Val) :
    (DeclaresFunc p name x ↔ ∃ dir, LiveFunc src.livePrefix src.pkgs dir name ∧ x = src.fn dir name) ∧
    (DeclaresType p name x ↔ ∃ dir, LiveType src.livePrefix src.pkgs dir name true ∧ x = src.ty dir name) := by
  obtain ⟨st, order, b, lf, lt, hc, ho, hr, h1, h2, h3, h4⟩ := h
  obtain ⟨b', hb', hf, ht⟩ := C41_registration_exact _ _ st hc order ho
  rw [hr] at hb'; cases hb'
  constructor
  · constructor
    · rintro ⟨m, e1, e2⟩
      rw [h1] at e1; cases e1
      rw [h2] at e2
      obtain ⟨dir, hd, rfl⟩ := Option.map_eq_some_iff.mp e2
      exact ⟨dir, (hf name dir).mp hd, rfl⟩
    · rintro ⟨dir, hd, rfl⟩
      exact ⟨lf, h1, by rw [h2, (hf name dir).mpr hd]; rfl⟩
  · constructor
    · rintro ⟨m, e1, e2⟩
      rw [h3] at e1; cases e1
      rw [h4] at e2
      obtain ⟨dir, hd, rfl⟩ := Option.map_eq_some_iff.mp e2
      exact ⟨dir, (ht name dir).mp hd, rfl⟩
    · rintro ⟨dir, hd, rfl⟩
      exact ⟨lt, h3, by rw [h4, (ht name dir).mpr hd]; rfl⟩

/-- The vault holds exactly the live functions and types declared in the sources of the plugins. -/
def HoldsSources (src : Nat → Sources) (pm : Manager) (v : Vault) : Prop :=
  (∀ name x, v.liveFuncs.get? name = some x ↔ ∃ p ∈ pm.plugins, ∃ dir, LiveFunc (src p.inst).livePrefix (src p.inst).pkgs dir name ∧ x = (src p.inst).fn dir name) ∧
  (∀ name x, v.liveTypes.get? name = some x ↔ ∃ p ∈ pm.plugins, ∃ dir, LiveType (src p.inst).livePrefix (src p.inst).pkgs dir name true ∧ x = (src p.inst).ty dir name)

/-- `OnInit` of the plugin does not change the live functions and types of the vault. -/
def LeavesLive (p : Plugin) : Prop := ∀ v, (p.code.onInit v).2.liveFuncs = v.liveFuncs ∧ (p.code.onInit v).2.liveTypes = v.liveTypes

omit [GoRuntime] in
theorem vaultAfter_live {l : List Plugin} (h : ∀ p ∈ l, LeavesLive p) (v : Vault) : (vaultAfter v l).liveFuncs = v.liveFuncs ∧ (vaultAfter v l).liveTypes = v.liveTypes := by
  induction l generalizing v with
  | nil => exact ⟨rfl, rfl⟩
  | cons p r ih =>
    obtain ⟨h1, h2⟩ := ih (fun q hq => h q (by simp [hq])) (p.code.onInit v).2
    obtain ⟨h3, h4⟩ := h p (by simp) v
    exact ⟨h1.trans h3, h2.trans h4⟩

/-- **C70.** If all plugins of a newly published manager were built from sources, every `OnInit` gets a vault, starting from one that holds exactly the live functions and
types declared in those sources; and if no `OnInit` changes them, `Current()` has exactly them in its vault. -/
theorem C70_sources_to_vault {cfg : Config} (hcfg : cfg.OK) {m : Machine} (h : Reachable cfg m) (env : Env) {k : Kind} (hk : refused cfg k = false) {pm : Manager}
    (hp : .publish pm ∈ (plan cfg env k m.current m.next).acts) (src : Nat → Sources) (hsrc : ∀ p ∈ pm.plugins, BuiltFromSources (src p.inst) p.code) :
    (∃ v0, initCalls (plan cfg env k m.current m.next).acts = initActs pm.mid v0 (pm.plugins.filter (isNew m.current)) ∧ HoldsSources src pm v0) ∧
    ((∀ p ∈ pm.plugins, LeavesLive p) → HoldsSources src pm pm.vault) := by
  obtain ⟨v0, h1, h2, h3, _, _, _, h7⟩ := C24_published_vault hcfg h env hk hp
  have hv0 : HoldsSources src pm v0 := by
    constructor <;> intro name x
    · rw [h2]
      exact exists_congr fun p => and_congr_right fun hp => (built_declares (hsrc p hp) name x).1
    · rw [h3]
      exact exists_congr fun p => and_congr_right fun hp => (built_declares (hsrc p hp) name x).2
  refine ⟨⟨v0, h1, hv0⟩, fun hl => ?_⟩
  obtain ⟨e1, e2⟩ := vaultAfter_live (l := pm.plugins.filter (isNew m.current)) (fun p hp => hl p (List.mem_filter.mp hp).1) v0
  rw [h7]
  exact ⟨by rw [e1]; exact hv0.1, by rw [e2]; exact hv0.2⟩

/-- **C70.** A live function or a live type declared in the sources of two plugins keeps them from being loaded together. -/
theorem C70_clash {cfg : Config} (hcfg : cfg.OK) {m : Machine} (h : Reachable cfg m) (env : Env) {k : Kind} (hk : refused cfg k = false)
    {p q : Plugin} (hp : p ∈ (plan cfg env k m.current m.next).built.plugins) (hq : q ∈ (plan cfg env k m.current m.next).built.plugins) (hne : p.inst ≠ q.inst) {sp sq : Sources}
    (hsp : BuiltFromSources sp p.code) (hsq : BuiltFromSources sq q.code) {d e : Str} {name : Str}
    (hdup : (LiveFunc sp.livePrefix sp.pkgs d name ∧ LiveFunc sq.livePrefix sq.pkgs e name) ∨
      (LiveType sp.livePrefix sp.pkgs d name true ∧ LiveType sq.livePrefix sq.pkgs e name true)) :
    ∀ r, (plan cfg env k m.current m.next).res ≠ .ok r := by
  rcases hdup with ⟨h1, h2⟩ | ⟨h1, h2⟩
  · exact C23_duplicates_rejected hcfg h env hk hp hq hne (name := name) (x := sp.fn d name) (y := sq.fn e name)
      (.inl ⟨(built_declares hsp name _).1.mpr ⟨d, h1, rfl⟩, (built_declares hsq name _).1.mpr ⟨e, h2, rfl⟩⟩)
  · exact C23_duplicates_rejected hcfg h env hk hp hq hne (name := name) (x := sp.ty d name) (y := sq.ty e name)
      (.inr ⟨(built_declares hsp name _).2.mpr ⟨d, h1, rfl⟩, (built_declares hsq name _).2.mpr ⟨e, h2, rfl⟩⟩)

/-- A Go map with all values changed. -/
def mapVals (f : Str → Str → Val) (b : GoMap Str) : GoMap Val where
  entries := b.entries.map (fun e => (e.1, f e.2 e.1))
  nodup := by
    rw [List.map_map]
    exact b.nodup

omit [GoRuntime] in
theorem mapVals_get (f : Str → Str → Val) (b : GoMap Str) (n : Str) : (mapVals f b).get? n = (b.get? n).map (fun dir => f dir n) := by
  unfold mapVals GoMap.get?
  simp only
  induction b.entries with
  | nil => rfl
  | cons e r ih =>
    rw [List.map_cons, List.lookup_cons, List.lookup_cons]
    by_cases he : n = e.1
    · subst he; simp
    · have : (n == e.1) = false := by simp [he]
      simp only [this]
      exact ih

/-- **C70.** Sources that the build accepts do give a plugin: package initialisation succeeds in every order, and the plugin is `BuiltFromSources`, whatever its other functions. -/
theorem C70_accepted_sources_build (src : Sources) (h : ∃ st, collectLive src.livePrefix src.pkgs = .ok st) (code : Code) :
    ∃ lf lt, BuiltFromSources src { code with liveFuncs := .ret (some lf), liveTypes := .ret (some lt) } := by
  obtain ⟨st, h⟩ := h
  obtain ⟨b, hb, _, _⟩ := C41_registration_exact _ _ st h _ (List.Perm.refl _)
  exact ⟨mapVals src.fn b.liveFuncs, mapVals src.ty b.liveTypes, st, _, b, _, _, h, .refl _, hb, rfl, mapVals_get _ _, rfl, mapVals_get _ _⟩

end

/-! ### Example -/

namespace Demo

attribute [local instance] rt

/-- Sources of plugin number `n` of the example program: one package with one live function. -/
def sources (n : Nat) : Sources where
  livePrefix := "live_".toList
  pkgs := [⟨"/src".toList, true, [[.func ("live_".toList ++ (Nat.repr n).toList) false]]⟩]
  fn := fun _ _ => ⟨.func 9, false, n⟩
  ty := fun _ _ => ⟨.func 0, false, n⟩

/-- What `collectLive` finds in a package that declares the one live function `f`. -/
theorem ex_collect {pre f : Str} (h : isLive pre f = true) (dir : Str) :
    collectLive pre [⟨dir, true, [[.func f false]]⟩] = .ok ⟨[f], appendAt .empty dir f, .empty, [dir], 0⟩ := by
  simp [collectLive, scanPkg, scanLiveDecl, scanFunc, h, LiveSt.init, addDir]

/-- The plugins of the example program were built from such sources. -/
theorem ex_built (r : Bool) (n : Nat) (fields : List Field) (h : isLive "live_".toList ("live_".toList ++ (Nat.repr n).toList) = true) :
    BuiltFromSources (sources n) (code r n fields) := by
  refine ⟨_, _, ⟨GoMap.empty.insert ("live_".toList ++ (Nat.repr n).toList) "/src".toList, .empty⟩, _, _, ex_collect h _, .refl _, ?_, rfl, ?_, rfl, fun _ => rfl⟩
  · simp [runInits, liveInit, appendAt, registerFunc, Bureau.init, GoMap.get?, GoMap.insert, GoMap.empty]
  · intro x
    generalize "live_".toList ++ (Nat.repr n).toList = f
    unfold GoMap.get? GoMap.insert GoMap.empty
    simp only [List.filter_nil, List.lookup_cons, List.lookup_nil]
    cases x == f <;> rfl

/-- The hypotheses of `C70_sources_to_vault` are met by the first load of the example program, and `OnInit` leaves the live names alone. -/
example : ∃ pm, .publish pm ∈ (plan cfg env1 .load none 0).acts ∧ (∀ p ∈ pm.plugins, BuiltFromSources (if p.inst = 2 then sources 1 else sources 2) p.code) ∧ ∀ p ∈ pm.plugins, LeavesLive p := by
  have hs : publishes (plan cfg env1 .load none 0).acts ≠ [] := by
    simp only [ne_eq, ← List.isEmpty_iff, Bool.not_eq_true]; decide +kernel
  obtain ⟨pm, hpm⟩ := List.exists_mem_of_ne_nil _ hs
  have hp := mem_publishes.mp hpm
  have hl : isLive "live_".toList ("live_".toList ++ (Nat.repr 1).toList) = true ∧ isLive "live_".toList ("live_".toList ++ (Nat.repr 2).toList) = true := by decide +kernel
  refine ⟨pm, hp, ?_⟩
  have hcode : ∀ p ∈ pm.plugins, (p.inst = 2 ∧ p.code = goodBase) ∨ (p.inst ≠ 2 ∧ p.code = goodApp) := by
    have e : (publishes (plan cfg env1 .load none 0).acts).map (fun pm => pm.plugins.map (fun p => (p.inst, p.file))) = [[(2, baseFile), (1, appFile)]] := by decide +kernel
    have this : pm.plugins.map (fun p => (p.inst, p.file)) ∈ [[(2, baseFile), (1, appFile)]] := by rw [← e]; exact List.mem_map_of_mem hpm
    intro p hm
    have hx := List.mem_map_of_mem (f := fun p => (p.inst, p.file)) hm
    rw [List.mem_singleton.mp this] at hx
    obtain ⟨absDir, entries, s0, s1, s, d, hd, _, cr, done, _, _, rfl, _⟩ := (view cfg_ok .init env1 .load).dynamic rfl hp
    obtain ⟨key, hkey⟩ := GoMap.mem_vals.mp (done.good.ordered.mem_iff.mp hm)
    obtain ⟨f, hf, a, ha, hma⟩ := (late_of (good_old cfg_ok .init) done.stage1 done.fin.frame.same).of key p hkey
    have hfile := hma.file
    have hcode := hma.code
    generalize p.unchanged = u at ha
    cases ha with
    | kept hk => obtain ⟨om, _, h, _⟩ := hk; cases h
    | fresh hn hr ho h1 h2 =>
      change p.file = f at hfile
      change p.code = _ at hcode
      rw [hcode]
      simp only [List.mem_cons, Prod.mk.injEq, List.not_mem_nil, or_false] at hx
      rcases hx with ⟨i1, i2⟩ | ⟨i1, i2⟩
      · left
        rw [← hfile, i2] at ho
        cases ho
        exact ⟨i1, rfl⟩
      · right
        rw [← hfile, i2] at ho
        cases ho
        exact ⟨by rw [i1]; decide, rfl⟩
  refine ⟨fun p hm => ?_, fun p hm v => ?_⟩
  · rcases hcode p hm with ⟨h1, h2⟩ | ⟨h1, h2⟩
    · rw [if_pos h1, h2]; exact ex_built _ _ _ hl.1
    · rw [if_neg h1, h2]; exact ex_built _ _ _ hl.2
  · rcases hcode p hm with ⟨_, h2⟩ | ⟨_, h2⟩ <;> rw [h2] <;> exact ⟨rfl, rfl⟩

end Demo

end Hotswap
