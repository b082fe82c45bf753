import Verif.Proofs.Cost
import Verif.Props.StaticLoads
import Mathlib.Algebra.Order.BigOperators.Group.List
import Mathlib.Algebra.Order.Group.Nat

/-!
# What the cycle check costs: C76
-/

namespace Hotswap

section
variable [GoRuntime]

open M

/-! ### The counter -/

/-- **C76.** The counted check is the check of the model: for every manager and every iteration order it has the same outcome. -/
theorem C76_counts (it : Iter) (s : LoadSt) : checkAllCyclic it s = (checkAllCounted it s.pm.pluginMap).1.act s := checkAllCyclic_act it s

/-- A computation that leaves the plugins of the manager alone. -/
def KeepsPlugins {α : Type} (x : M α) : Prop := ∀ s, (x s).2.pm.pluginMap = s.pm.pluginMap

omit [GoRuntime] in
theorem KeepsPlugins.bind {α β : Type} {x : M α} {f : α → M β} (hx : KeepsPlugins x) (hf : ∀ a, KeepsPlugins (f a)) : KeepsPlugins (M.bind x f) := by
  intro s
  have h := hx s
  unfold M.bind
  cases hxs : x s with
  | mk e s' =>
    rw [hxs] at h
    cases e with
    | ok a => exact (hf a s').trans h
    | err e => exact h
    | panic p => exact h

omit [GoRuntime] in
theorem KeepsPlugins.forEach {α : Type} {f : α → M Unit} (hf : ∀ a, KeepsPlugins (f a)) : ∀ l : List α, KeepsPlugins (M.forEach l f)
  | [] => fun _ => rfl
  | a :: r => (hf a).bind (fun _ => KeepsPlugins.forEach hf r)

theorem keeps_setOrder (it : Iter) : KeepsPlugins (setOrder it) := by
  intro s
  unfold setOrder
  change (match orderPlugins it s.pm.pluginMap with | none => M.panic .orderBroken | some a => modPm (fun pm => { pm with ordered := a }) : M Unit) s |>.2.pm.pluginMap = _
  cases orderPlugins it s.pm.pluginMap <;> rfl

theorem keeps_checkRebuilt (it : Iter) : KeepsPlugins (checkRebuilt it) := by
  refine KeepsPlugins.bind (fun _ => rfl) (fun s => ?_)
  refine KeepsPlugins.forEach (fun e => ?_) _
  split
  · refine KeepsPlugins.forEach (fun d => ?_) _
    split
    · exact fun _ => rfl
    · split
      · exact fun _ => rfl
      · exact fun _ => rfl
  · exact fun _ => rfl

theorem keeps_onLoad (data : Nat) : KeepsPlugins (invokeEveryOnLoad data) := by
  refine KeepsPlugins.bind (fun _ => rfl) (fun s => KeepsPlugins.forEach (fun p => ?_) _)
  split
  · exact fun _ => rfl
  · refine KeepsPlugins.bind (fun _ => rfl) (fun _ => ?_)
    split <;> exact fun _ => rfl

theorem keeps_onInit : KeepsPlugins invokeEveryOnInit := by
  refine KeepsPlugins.bind (fun _ => rfl) (fun s => KeepsPlugins.forEach (fun p => ?_) _)
  split
  · exact fun _ => rfl
  · refine KeepsPlugins.bind (fun _ => rfl) (fun s' => KeepsPlugins.bind (fun _ => rfl) (fun _ => KeepsPlugins.bind (fun _ => rfl) (fun _ => ?_)))
    split <;> exact fun _ => rfl

theorem keeps_liveFuncs (it : Iter) : ∀ (l before : List Plugin), KeepsPlugins (setupLiveFuncs it before l)
  | [], _ => fun _ => rfl
  | p :: r, before => by
    refine KeepsPlugins.bind (fun _ => rfl) (fun _ => ?_)
    split
    · exact fun _ => rfl
    · exact fun _ => rfl
    · refine KeepsPlugins.bind (KeepsPlugins.forEach (fun e => KeepsPlugins.bind (fun _ => rfl) (fun s => ?_)) _) (fun _ => keeps_liveFuncs it r _)
      split <;> exact fun _ => rfl

theorem keeps_liveTypes (it : Iter) : ∀ (l before : List Plugin), KeepsPlugins (setupLiveTypes it before l)
  | [], _ => fun _ => rfl
  | p :: r, before => by
    refine KeepsPlugins.bind (fun _ => rfl) (fun _ => ?_)
    split
    · exact fun _ => rfl
    · exact fun _ => rfl
    · refine KeepsPlugins.bind (KeepsPlugins.forEach (fun e => KeepsPlugins.bind (fun _ => rfl) (fun s => ?_)) _) (fun _ => keeps_liveTypes it r _)
      split <;> exact fun _ => rfl

theorem keeps_setupVault (it : Iter) : KeepsPlugins (setupVault it) :=
  KeepsPlugins.bind (fun _ => rfl) (fun _ => (keeps_liveFuncs it _ _).bind (fun _ => keeps_liveTypes it _ _))

omit [GoRuntime] in
theorem bind_ok {α β : Type} {x : M α} {f : α → M β} {s s' : LoadSt} {b : β} (h : M.bind x f s = (.ok b, s')) : ∃ a s1, x s = (.ok a, s1) ∧ f a s1 = (.ok b, s') := by
  unfold M.bind at h
  cases hx : x s with
  | mk e s1 =>
    rw [hx] at h
    cases e with
    | ok a => exact ⟨a, s1, rfl, h⟩
    | err e => cases h
    | panic p => cases h

/-- **C76.** The check of a load that goes well runs on the plugins of the manager as they are afterwards: once the imports are resolved, nothing changes names or dependencies. -/
theorem C76_checked_plugins {it : Iter} {data : Nat} {s s' : LoadSt} (h : finishLoad it data s = (.ok (), s')) :
    ∃ s1, M.forEach (sortStrings (s.pm.pluginMap.range it .depKeys)) importPlugin s = (.ok (), s1) ∧ checkAllCyclic it s1 = (.ok (), s1) ∧ s1.pm.pluginMap = s'.pm.pluginMap := by
  obtain ⟨_, a1, h1, h⟩ := bind_ok h
  obtain ⟨_, a2, h2, h⟩ := bind_ok h
  obtain ⟨_, a3, h3, h4⟩ := bind_ok h
  obtain ⟨_, b1, g1, h1⟩ := bind_ok h1
  obtain ⟨_, b2, g2, h1⟩ := bind_ok h1
  obtain ⟨_, b3, g3, g4⟩ := bind_ok h1
  have e : b2 = b1 := by
    rw [C76_counts] at g2
    cases hc : (checkAllCounted it b1.pm.pluginMap).1 <;> rw [hc] at g2 <;> cases g2
    rfl
  subst e
  refine ⟨b2, g1, g2, ?_⟩
  have k1 := keeps_checkRebuilt it b2
  have k2 := keeps_setOrder it b3
  have k3 := keeps_onLoad data a1
  have k4 := keeps_setupVault it a2
  have k5 := keeps_onInit a3
  rw [g3] at k1; rw [g4] at k2; rw [h2] at k3; rw [h3] at k4; rw [h4] at k5
  rw [k5, k4, k3, k2, k1]

/-! ### The number of calls is the number of dependency paths -/

/-- **C76.** One check that finds nothing makes as many calls as there are dependency paths from the plugin it starts at. -/
theorem C76_one_check (m : GoMap Plugin) (p : Plugin) (vis : List Str) (n : Nat) (hc : (checkCyclicCounted m n (some p) vis).1 = .clean) :
    ∃ L, ListsWalks m p L ∧ (checkCyclicCounted m n (some p) vis).2 = L.length := by
  rw [checkCyclicCounted_fst] at hc
  exact ⟨walks m n p, ⟨walks_nodup m n p, mem_walks (checkCyclic_clean hc)⟩, walks_count hc⟩

/-- **C76.** For every manager that a call publishes: whatever the iteration order, the check of its plugins finds nothing and calls `checkCyclicDependency` exactly once for every
dependency path that starts at a plugin with dependencies. -/
theorem C76_calls {cfg : Config} (hcfg : cfg.OK) {m : Machine} (h : Reachable cfg m) (env : Env) {k : Kind} (hk : refused cfg k = false) {pm : Manager}
    (hp : .publish pm ∈ (plan cfg env k m.current m.next).acts) (it : Iter) :
    ∃ L, ListsAllWalks pm.pluginMap L ∧ checkAllCounted it pm.pluginMap = (.clean, L.length) := by
  obtain ⟨rfl, s0, s1, s, d, hs⟩ := (view hcfg h env k).published hk hp
  rw [hs.built]
  exact checkAll_count it (fun _ p hp _ => sound_clean hs.good.toSoundManager hp)

/-- **C76.** The number does not depend on the iteration order. -/
theorem C76_order_irrelevant {cfg : Config} (hcfg : cfg.OK) {m : Machine} (h : Reachable cfg m) (env : Env) {k : Kind} (hk : refused cfg k = false) {pm : Manager}
    (hp : .publish pm ∈ (plan cfg env k m.current m.next).acts) (it it' : Iter) : checkAllCounted it pm.pluginMap = checkAllCounted it' pm.pluginMap := by
  obtain ⟨L, hL, e⟩ := C76_calls hcfg h env hk hp it
  obtain ⟨L', hL', e'⟩ := C76_calls hcfg h env hk hp it'
  rw [e, e']
  have : L.Perm L' := (List.perm_ext_iff_of_nodup hL.1 hL'.1).mpr (fun ⟨k, w⟩ => (hL.2 k w).trans (hL'.2 k w).symm)
  rw [this.length_eq]

/-! ### It can be exponential in the number of plugins -/

/-- The plugins are arranged in layers, and each of them imports (at least) two of the next lower layer. -/
def Layers (m : GoMap Plugin) (layer : Nat → Plugin → Prop) : Prop :=
  ∀ i p, layer (i + 1) p → ∃ d d' q q', [d, d'].Sublist p.deps ∧ m.get? (name2key d) = some q ∧ m.get? (name2key d') = some q' ∧ layer i q ∧ layer i q'

theorem walks_succ (m : GoMap Plugin) (n : Nat) (p : Plugin) :
    (walks m (n + 1) p).length = 1 + (p.deps.map (fun d => match m.get? (name2key d) with | none => 0 | some q => (walks m n q).length)).sum := by
  rw [show walks m (n + 1) p = [] :: p.deps.zipIdx.flatMap (fun e => match m.get? (name2key e.1) with
    | none => []
    | some q => (walks m n q).map (e.2 :: ·)) from rfl]
  rw [List.length_cons, List.length_flatMap, Nat.add_comm]
  congr 2
  have : p.deps = p.deps.zipIdx.map Prod.fst := by simp
  conv => rhs; rw [this]
  rw [List.map_map]
  refine List.map_congr_left ?_
  rintro ⟨d, i⟩ _
  dsimp only [Function.comp]
  cases m.get? (name2key d) <;> simp

theorem walks_layers {m : GoMap Plugin} {layer : Nat → Plugin → Prop} (hl : Layers m layer) : ∀ (i n : Nat) (p : Plugin), Height m n p → layer i p → 2 ^ (i + 1) ≤ (walks m n p).length + 1
  | 0, 0, p, h, _ => h.elim
  | 0, n + 1, p, h, _ => by rw [walks_succ]; omega
  | i + 1, 0, p, h, _ => h.elim
  | i + 1, n + 1, p, h, hp => by
    obtain ⟨d, d', q, q', hsub, hq, hq', lq, lq'⟩ := hl i p hp
    rw [walks_succ]
    have hs := (hsub.map (fun d => match m.get? (name2key d) with | none => 0 | some q => (walks m n q).length)).sum_le_sum (fun _ _ => Nat.zero_le _)
    simp only [List.map_cons, List.map_nil, hq, hq', List.sum_cons, List.sum_nil] at hs
    obtain ⟨r, hr, h1⟩ := h d (hsub.subset (by simp))
    rw [hq] at hr; cases hr
    obtain ⟨r, hr, h2⟩ := h d' (hsub.subset (by simp))
    rw [hq'] at hr; cases hr
    have e1 := walks_layers hl i n _ h1 lq
    have e2 := walks_layers hl i n _ h2 lq'
    rw [Nat.pow_succ]
    omega

/-- **C76.** If the plugins of a published manager are arranged in layers, each plugin importing two of the next lower layer, then the check makes more than `2 ^ n` calls, where `n ≥ 1` is the
number of the highest layer. -/
theorem C76_layers {cfg : Config} (hcfg : cfg.OK) {m : Machine} (h : Reachable cfg m) (env : Env) {k : Kind} (hk : refused cfg k = false) {pm : Manager}
    (hp : .publish pm ∈ (plan cfg env k m.current m.next).acts) (it : Iter) {layer : Nat → Plugin → Prop} (hl : Layers pm.pluginMap layer) {n : Nat} {p : Plugin}
    (hn : layer (n + 1) p) {key : Str} (hg : pm.pluginMap.get? key = some p) : 2 ^ (n + 1) < (checkAllCounted it pm.pluginMap).2 := by
  obtain ⟨L, hL, e⟩ := C76_calls hcfg h env hk hp it
  obtain ⟨rfl, s0, s1, s, d, hs⟩ := (view hcfg h env k).published hk hp
  rw [e]
  have hc : checkCyclic (plan cfg env k m.current m.next).built.pluginMap (cyclicFuel (plan cfg env k m.current m.next).built.pluginMap) (some p) [] = .clean := by
    rw [hs.built] at hg ⊢
    exact sound_clean hs.good.toSoundManager hg
  generalize (plan cfg env k m.current m.next).built.pluginMap = mp at *
  have hh := checkCyclic_clean hc
  have h1 := walks_layers hl (n + 1) _ p hh hn
  have hsub : ((walks mp (cyclicFuel mp) p).map (fun w => (key, w))).Subperm L := by
    refine List.subperm_of_subset ((walks_nodup _ _ _).map (fun a b h => by injection h)) ?_
    intro x hx
    obtain ⟨w, hw, rfl⟩ := List.mem_map.mp hx
    refine (hL.2 key w).mpr ⟨p, hg, ?_, (mem_walks hh w).mp hw⟩
    obtain ⟨d, d', _, _, hsub, _⟩ := hl n p hn
    intro hd
    rw [hd] at hsub
    cases hsub
  have h2 := hsub.length_le
  rw [List.length_map] at h2
  have h3 : 2 ^ (n + 1 + 1) = 2 * 2 ^ (n + 1) := by rw [Nat.pow_succ]; omega
  have h4 : 2 ≤ 2 ^ (n + 1) := by rw [Nat.pow_succ]; have := Nat.one_le_two_pow (n := n); omega
  show 2 ^ (n + 1) < L.length
  omega

/-! ### A family of programs -/

/-- The name of the `k`-th field: `A`, `AA`, `AAA`, ... -/
def rungField (k : Nat) : Str := List.replicate (k + 1) 'A'

/-- The name of the `k`-th plugin, in lower case. -/
def rungName (k : Nat) : Str := name2key (rungField k)

/-- The numbers of the plugins that plugin `k` imports. Plugins `2 * i` and `2 * i + 1` form layer `i`; they import both plugins of layer `i - 1`. -/
def rungImports (k : Nat) : List Nat := if k < 2 then [] else [2 * (k / 2) - 2, 2 * (k / 2) - 1]

omit [GoRuntime] in
/-- Plugin `k`: all its hooks succeed, it exports nothing and imports the two plugins below. -/
def rungCode (k : Nat) : Code where
  reloadable := .ret true
  exportRet := .ret none
  importRet := .ret ⟨some ⟨.ptr (.struct k), false, k⟩, (rungImports k).map (fun j => { name := rungField j, tag := [], anonymous := false, typ := .struct j })⟩
  onLoad := fun _ => .ok
  onInit := fun v => (.ok, v)
  onFreePanics := false
  invokeFunc := fun _ _ => .ok
  liveFuncs := .ret (some .empty)
  liveTypes := .ret (some .empty)

theorem rungName_inj {i j : Nat} (h : rungName i = rungName j) : i = j := by
  have := congrArg List.length h
  unfold rungName name2key rungField at this
  simp at this
  exact this

theorem rungName_idem (i : Nat) : name2key (rungName i) = rungName i := by
  unfold rungName name2key
  rw [List.map_map]
  refine List.map_congr_left (fun c _ => ?_)
  exact GoRuntime.toLower_idem c

/-- A program with the statically linked plugins `0`, ..., `2 * n + 1`: layers `0`, ..., `n` of two plugins each. -/
def ladder (n : Nat) : GoMap StaticPlugin where
  entries := (List.range (2 * n + 2)).map (fun k => (rungName k, { name := rungName k, missing := fun _ => false, code := rungCode k }))
  nodup := by
    rw [List.map_map]
    exact (List.nodup_range).map (fun i j h => rungName_inj h)

theorem ladder_get {n : Nat} {key : Str} {sp : StaticPlugin} : (ladder n).get? key = some sp ↔
    ∃ k, k < 2 * n + 2 ∧ key = rungName k ∧ sp = { name := rungName k, missing := fun _ => false, code := rungCode k } := by
  rw [GoMap.get?_eq_some]
  unfold ladder
  rw [List.mem_map]
  constructor
  · rintro ⟨k, hk, h⟩
    cases h
    exact ⟨k, List.mem_range.mp hk, rfl, rfl⟩
  · rintro ⟨k, hk, rfl, rfl⟩
    exact ⟨k, List.mem_range.mpr hk, rfl⟩

theorem ladder_ok (n : Nat) : StaticOK (ladder n) := by
  unfold StaticOK GoMap.vals ladder
  rw [List.map_map, List.map_map]
  refine (List.nodup_range).map (fun i j h => rungName_inj ?_)
  simp only [Function.comp, rungName_idem] at h
  exact h

omit [GoRuntime] in
theorem rungImports_lt {k j : Nat} (h : j ∈ rungImports k) : j < k ∧ j / 2 < k / 2 := by
  unfold rungImports at h
  split at h
  · cases h
  · simp only [List.mem_cons, List.not_mem_nil, or_false] at h
    omega

theorem ladder_offers {n : Nat} {f : Str} {u : Bool} {P : Plugin} (h : StaticOffers (ladder n) f u P) :
    ∃ k, k < 2 * n + 2 ∧ f = rungName k ∧ P.name = rungName k ∧ P.code = rungCode k ∧ P.reloadable = true ∧ P.exported = none ∧ u = false := by
  cases h with
  | @new sp r x h h1 h2 =>
    obtain ⟨k, hk, rfl, rfl⟩ := ladder_get.mp h
    cases h1; cases h2
    exact ⟨k, hk, rfl, rfl, rfl, rfl, rfl, rfl⟩

theorem ladder_offer {n k : Nat} (hk : k < 2 * n + 2) : ∃ P, StaticOffers (ladder n) (rungName k) false P ∧ P.name = rungName k ∧ P.reloadable = true ∧ P.exported = none := by
  exact ⟨_, StaticOffers.new (sp := { name := rungName k, missing := fun _ => false, code := rungCode k }) (r := true) (x := none) (ladder_get.mpr ⟨k, hk, rfl, rfl⟩) rfl rfl, rfl, rfl, rfl⟩

theorem ladder_field {P : Plugin} {k : Nat} (hc : P.code = rungCode k) {fd : Field} (hf : ImportField P fd) : ∃ j ∈ rungImports k, fd = { name := rungField j, tag := [], anonymous := false, typ := .struct j } := by
  obtain ⟨imp, hi, _, hm⟩ := hf
  rw [hc] at hi
  cases hi
  obtain ⟨j, hj, rfl⟩ := List.mem_map.mp hm
  exact ⟨j, hj, rfl⟩

theorem ladder_loadable (n : Nat) {cfg : Config} (hw : cfg.whitelist = []) (data : Nat) : StaticLoadable cfg (ladder n) data := by
  have hsel : ∀ k, k < 2 * n + 2 → rungName k ∈ selectedNames cfg (ladder n) := fun k hk => mem_selectedNames.mpr ⟨_, ladder_get.mpr ⟨k, hk, rfl, rfl⟩, .inl hw⟩
  refine ⟨⟨?_, ?_, ?_, ?_, ?_, ?_⟩, ?_, ?_⟩
  · intro f _ P hP
    obtain ⟨k, _, _, _, hc, _⟩ := ladder_offers hP
    rw [hc]
    exact ⟨⟨_, rfl, .inr ⟨_, k, rfl, rfl⟩⟩, rfl, fun _ => rfl⟩
  · intro f _ P hP fd hfd _
    obtain ⟨k, hk, _, hn, hc, hr, _⟩ := ladder_offers hP
    obtain ⟨j, hj, rfl⟩ := ladder_field hc hfd
    have hjk := (rungImports_lt hj).1
    obtain ⟨Q, hQ, hqn, hqr, hqx⟩ := ladder_offer (n := n) (k := j) (by omega)
    refine ⟨rfl, rungName j, hsel j (by omega), false, Q, hQ, ⟨?_, ?_, ?_⟩⟩
    · rw [hqn, rungName_idem]; rfl
    · rw [hr]; intro h; cases h
    · rw [hqx]; intro v h; cases h
  · intro f _ P hP
    obtain ⟨_, _, _, _, _, _, _, h⟩ := ladder_offers hP
    cases h
  · refine ⟨List.length, ?_⟩
    intro f _ P hP fd hfd _ g _ Q hQ he
    obtain ⟨k, hk, _, hn, hc, _⟩ := ladder_offers hP
    obtain ⟨j, hj, rfl⟩ := ladder_field hc hfd
    rw [he, hn]
    have := (rungImports_lt hj).1
    unfold rungName name2key rungField
    simp
    exact this
  · intro f _ P hP
    obtain ⟨k, _, _, _, hc, _⟩ := ladder_offers hP
    rw [hc]
    exact ⟨⟨_, rfl⟩, ⟨_, rfl⟩⟩
  · intro f _ g _ _ u v P Q hP hQ _
    obtain ⟨k, _, _, _, hc, _⟩ := ladder_offers hP
    obtain ⟨k', _, _, _, hc', _⟩ := ladder_offers hQ
    rw [hc, hc']
    constructor <;> (intro x y hx hy nm hnm; cases hx; exact absurd rfl hnm)
  · rw [hw]; intro _ h; cases h
  · intro nm sp hs
    obtain ⟨k, _, _, rfl⟩ := ladder_get.mp hs.1
    exact ⟨fun _ _ => rfl, ⟨_, rfl⟩, ⟨_, rfl⟩⟩

omit [GoRuntime] in
theorem rung_importable (j : Nat) (t : GoType) : importable { name := rungField j, tag := [], anonymous := false, typ := t } = true := by
  unfold rungField
  rw [List.replicate_succ]
  rfl

/-- **C76.** A load need not finish in a time polynomial in the number of plugins: for every `n` there is a program with `2 * n + 4` statically linked plugins that `LoadPlugins` loads without
an error, in every state and whatever the iteration order, and whose cycle check calls `checkCyclicDependency` more than `2 ^ (n + 1)` times. -/
theorem C76_exponential (n : Nat) {cfg : Config} (hst : cfg.static = some (ladder (n + 1))) (hw : cfg.whitelist = []) {m : Machine} (h : Reachable cfg m) (env : Env)
    (hext : cfg.hasNewExt = true → env.ext ≠ .panics) (hcb : cfg.hasCallback = true → env.cbResult = .ok) :
    ∃ pm, .publish pm ∈ (plan cfg env .load m.current m.next).acts ∧ pm.plugins.length = 2 * n + 4 ∧ 2 ^ (n + 1) < (checkAllCounted env.it pm.pluginMap).2 := by
  have hcfg : cfg.OK := by intro sps hs; rw [hst] at hs; cases hs; exact ladder_ok _
  have hstable : InitStableBy (StaticOffers (ladder (n + 1))) (selectedNames cfg (ladder (n + 1))) := by
    intro f _ P hP v w
    obtain ⟨k, _, _, _, hc, _⟩ := ladder_offers hP
    rw [hc]; rfl
  obtain ⟨pm, hp⟩ := (C69_static_success_iff hcfg hst h env hstable).mpr ⟨hext, ladder_loadable _ hw _, hcb⟩
  refine ⟨pm, hp, ?_⟩
  obtain ⟨sel, s0, s1, s, d, hsel, cr, done, hdet, hres, rfl⟩ := (view hcfg h env .load).static hst rfl hp
  have hselg : ∀ nm sp, sel.get? nm = some sp ↔ (ladder (n + 1)).get? nm = some sp := by
    intro nm sp
    rw [staticSelection_ok hsel nm sp]
    exact ⟨fun h => h.1, fun h => ⟨h, .inl hw⟩⟩
  have hplug : ∀ k, k < 2 * n + 4 → ∃ P, s.pm.pluginMap.get? (rungName k) = some P ∧ P.code = rungCode k ∧ P.name = rungName k := by
    intro k hk
    have hg := (hselg _ _).mpr (ladder_get.mpr ⟨k, by omega, rfl, rfl⟩)
    obtain ⟨sp', p, h1, h2, h3⟩ := done.stage1.new (rungName k) (GoMap.mem_keys.mpr ⟨_, hg⟩)
    rw [hg] at h1; cases h1
    rw [rungName_idem] at h2
    obtain ⟨d, b, hget⟩ := done.fin.frame.same.get _ p h2
    exact ⟨_, hget, h3.code, h3.name⟩
  have hdeps : ∀ k P, k < 2 * n + 4 → s.pm.pluginMap.get? (rungName k) = some P → P.deps = (rungImports k).map rungName := by
    intro k P hk hP
    obtain ⟨P', hP', hc, _⟩ := hplug k hk
    rw [hP] at hP'; cases hP'
    have hr := (done.good.resolved _ _ hP).2.1
    rw [hr]
    have : importFields P = (rungImports k).map (fun j => { name := rungField j, tag := [], anonymous := false, typ := .struct j }) := by
      unfold importFields
      rw [hc]
      change List.filter importable ((rungImports k).map _) = _
      rw [List.filter_eq_self]
      intro f hf
      obtain ⟨j, _, rfl⟩ := List.mem_map.mp hf
      exact rung_importable j _
    rw [this, List.filterMap_map, ← List.filterMap_eq_map]
    refine List.filterMap_congr ?_
    intro j hj
    obtain ⟨Q, hQ, _, hname⟩ := hplug j (by have := (rungImports_lt hj).1; omega)
    dsimp only [Function.comp]
    change (s.pm.pluginMap.get? (rungName j)).map _ = _
    rw [hQ]
    exact congrArg some hname
  constructor
  · have hperm : s.pm.pluginMap.keys.Perm ((List.range (2 * n + 4)).map rungName) := by
      refine (List.perm_ext_iff_of_nodup s.pm.pluginMap.nodup ((List.nodup_range).map (fun i j h => rungName_inj h))).mpr ?_
      intro key
      change key ∈ s.pm.pluginMap.keys ↔ _
      constructor
      · intro hk
        rw [List.mem_map]
        rw [done.fin.frame.same.keys] at hk
        obtain ⟨p, hp⟩ := GoMap.mem_keys.mp hk
        obtain ⟨nm, _, sp, hsp, rfl⟩ := done.stage1.only _ _ hp
        obtain ⟨k, hk, _, rfl⟩ := ladder_get.mp ((hselg _ _).mp hsp)
        exact ⟨k, List.mem_range.mpr (by omega), (rungName_idem k).symm⟩
      · intro hm
        obtain ⟨k, hk, rfl⟩ := List.mem_map.mp hm
        obtain ⟨P, hP, _⟩ := hplug k (List.mem_range.mp hk)
        exact GoMap.mem_keys.mpr ⟨P, hP⟩
    have h1 := hperm.length_eq
    have h2 := done.good.ordered.length_eq
    rw [← GoMap.size_eq_vals, GoMap.size_eq_keys, h1] at h2
    change s.pm.ordered.length = _
    simpa using h2
  · obtain ⟨P, hP, _⟩ := hplug (2 * n + 2) (by omega)
    refine C76_layers hcfg h env (k := .load) rfl hp env.it (layer := fun i P => ∃ k, k < 2 * n + 4 ∧ k / 2 = i ∧ s.pm.pluginMap.get? (rungName k) = some P)
      ?_ (n := n) (p := P) ⟨2 * n + 2, by omega, by omega, hP⟩ hP
    rintro i p ⟨k, hk, hi, hp⟩
    have hd := hdeps k p hk hp
    have h2 : ¬ k < 2 := by omega
    unfold rungImports at hd
    rw [if_neg h2] at hd
    obtain ⟨Q, hQ, _⟩ := hplug (2 * (k / 2) - 2) (by omega)
    obtain ⟨Q', hQ', _⟩ := hplug (2 * (k / 2) - 1) (by omega)
    refine ⟨rungName (2 * (k / 2) - 2), rungName (2 * (k / 2) - 1), Q, Q', ?_, ?_, ?_, ⟨_, by omega, by omega, hQ⟩, ⟨_, by omega, by omega, hQ'⟩⟩
    · rw [hd]; exact List.Sublist.refl _
    · rw [rungName_idem]; exact hQ
    · rw [rungName_idem]; exact hQ'

end

/-! ### Examples -/

namespace Demo

attribute [local instance] rt

/-- A program of layers meets the hypotheses of `C76_exponential`, in the initial state: here with the four plugins `a`, `aa`, `aaa`, `aaaa`. -/
example : ∃ pm, .publish pm ∈ (plan { cfg with static := some (ladder 1) } env0 .load none 0).acts ∧ pm.plugins.length = 4 ∧ 2 < (checkAllCounted env0.it pm.pluginMap).2 :=
  C76_exponential 0 (cfg := { cfg with static := some (ladder 1) }) rfl rfl .init env0 (fun _ h => nomatch h) (fun _ => rfl)

/-- Names of its plugins. -/
example : (ladder 1).keys = ["a".toList, "aa".toList, "aaa".toList, "aaaa".toList] := by decide +kernel

end Demo

end Hotswap
