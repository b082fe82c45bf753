import Mathlib.Data.List.Perm.Subperm
import Verif.Props.Files
import Verif.Spec.Static

/-!
# Which plugins are selected: names, whitelist, static linking (C27, C28, C30, C31, C32, C52)
-/

namespace Hotswap

section

/-! ### C52 -/

theorem hasSuffix_iff {s x : Str} : Str.hasSuffix s x = true ↔ x <:+ s := by
  unfold Str.hasSuffix; exact List.isSuffixOf_iff_suffix

theorem trimSuffix_append (n x : Str) : Str.trimSuffix (n ++ x) x = n := by
  unfold Str.trimSuffix
  rw [if_pos (hasSuffix_iff.mpr (List.suffix_append n x))]
  simp

theorem trimSuffix_of_suffix {s x : Str} (h : x <:+ s) : Str.trimSuffix s x ++ x = s := by
  obtain ⟨n, rfl⟩ := h
  rw [trimSuffix_append]

/-- A slash-free, non-empty last component. -/
theorem base_append_slash {d x : Str} (hx : x ≠ []) (hs : '/' ∉ x) : filepathBase (d ++ '/' :: x) = x := by
  have hr : x.reverse ≠ [] := by simpa using hx
  obtain ⟨c, t, hc⟩ := List.exists_cons_of_ne_nil hr
  have hcs : c ≠ '/' := by
    rintro rfl
    exact hs (List.mem_reverse.mp (by rw [hc]; simp))
  have hd : dropTrailingSlashes (d ++ '/' :: x) = d ++ '/' :: x := by
    unfold dropTrailingSlashes
    have : (d ++ '/' :: x).reverse = c :: (t ++ '/' :: d.reverse) := by
      simp [hc]
    rw [this, List.dropWhile_cons_of_neg (by simpa using hcs), ← this, List.reverse_reverse]
  unfold filepathBase
  rw [if_neg (by simp)]
  simp only [hd]
  rw [if_neg (by simp)]
  have : (d ++ '/' :: x).reverse = x.reverse ++ '/' :: d.reverse := by simp
  rw [this, List.takeWhile_append_of_pos]
  · simp
  · intro a ha
    simp only [bne_iff_ne, ne_eq]
    rintro rfl
    exact hs (List.mem_reverse.mp ha)

theorem base_plain {x : Str} (hx : x ≠ []) (hs : '/' ∉ x) : filepathBase x = x := by
  have hr : x.reverse ≠ [] := by simpa using hx
  obtain ⟨c, t, hc⟩ := List.exists_cons_of_ne_nil hr
  have hcs : c ≠ '/' := by
    rintro rfl
    exact hs (List.mem_reverse.mp (by rw [hc]; simp))
  have hd : dropTrailingSlashes x = x := by
    unfold dropTrailingSlashes
    rw [hc, List.dropWhile_cons_of_neg (by simpa using hcs), ← hc, List.reverse_reverse]
  unfold filepathBase
  rw [if_neg hx]
  simp only [hd]
  have ht : List.takeWhile (fun c => c != '/') x.reverse = x.reverse := by
    have := List.takeWhile_append_of_pos (p := fun c => c != '/') (l₁ := x.reverse) (l₂ := []) (by
      intro a ha
      simp only [bne_iff_ne, ne_eq]
      rintro rfl
      exact hs (List.mem_reverse.mp ha))
    simpa using this
  rw [if_neg hx, ht, List.reverse_reverse]

theorem base_joinPath {d x : Str} (hx : x ≠ []) (hs : '/' ∉ x) : filepathBase (joinPath d x) = x := by
  unfold joinPath
  split
  · exact base_append_slash (d := []) hx hs
  · exact base_append_slash hx hs

theorem ext_no_slash : '/' ∉ fileNameExt := by decide

/-- **C52.** The plugin in `<dir>/n.so` is named `n`, for every directory and every slash-free name (even one that ends in `.so` itself, or is empty). -/
theorem C52_name_round_trip (dir n : Str) (hn : '/' ∉ n) : pluginName (joinPath dir (n ++ fileNameExt)) = n := by
  unfold pluginName
  rw [base_joinPath, trimSuffix_append]
  · simp [fileNameExt]
  · simp [hn, ext_no_slash]

/-- **C52.** Different plugin files of one directory have different names. -/
theorem C52_names_distinct (dir x y : Str) (hx : fileNameExt <:+ x) (hy : fileNameExt <:+ y) (hsx : '/' ∉ x) (hsy : '/' ∉ y)
    (h : pluginName (joinPath dir x) = pluginName (joinPath dir y)) : x = y := by
  obtain ⟨a, rfl⟩ := hx
  obtain ⟨b, rfl⟩ := hy
  rw [C52_name_round_trip dir a (by simp at hsx; exact hsx.1), C52_name_round_trip dir b (by simp at hsy; exact hsy.1)] at h
  rw [h]

/-- Directory entries have non-empty names without slashes. -/
def RealEntries (entries : List DirEntry) : Prop := ∀ e ∈ entries, '/' ∉ e.name

theorem pluginName_joinPath {dir x : Str} (hx : fileNameExt <:+ x) (hs : '/' ∉ x) : pluginName (joinPath dir x) = pluginName x := by
  have hne : x ≠ [] := by obtain ⟨a, rfl⟩ := hx; simp [fileNameExt]
  unfold pluginName
  rw [base_joinPath hne hs, base_plain hne hs]

/-! ### C30 -/

/-- Is the file a plugin file that the whitelist does not exclude? -/
def Considered (wl : List Str) (e : DirEntry) : Prop := e.isDir = false ∧ ".so".toList <:+ e.name ∧ (wl = [] ∨ pluginName e.name ∈ wl)

theorem mem_qualifying {wl : List Str} {entries : List DirEntry} {n : Str} :
    n ∈ qualifying wl entries ↔ ∃ e ∈ entries, Considered wl e ∧ e.name = n := by
  unfold qualifying Considered
  simp only [List.mem_map, List.mem_filter, Bool.and_eq_true, Bool.or_eq_true, Bool.not_eq_true', hasSuffix_iff, List.isEmpty_iff]
  have hc : ∀ e : DirEntry, whitelistContains wl (pluginName e.name) = true ↔ pluginName e.name ∈ wl := by
    intro e; unfold whitelistContains; simp
  simp only [hc]
  constructor
  · rintro ⟨e, ⟨he, ⟨h1, h2⟩, h3⟩, rfl⟩; exact ⟨e, he, ⟨h1, h2, h3⟩, rfl⟩
  · rintro ⟨e, he, ⟨h1, h2, h3⟩, rfl⟩; exact ⟨e, ⟨he, ⟨h1, h2⟩, h3⟩, rfl⟩

/-- Does the directory hold a plugin of this name? -/
def Present (entries : List DirEntry) (v : Str) : Prop := ∃ e ∈ entries, e.isDir = false ∧ e.name = v ++ ".so".toList

theorem pluginName_plain {x : Str} (hx : fileNameExt <:+ x) (hs : '/' ∉ x) : pluginName x ++ fileNameExt = x := by
  have hne : x ≠ [] := by obtain ⟨a, rfl⟩ := hx; simp [fileNameExt]
  unfold pluginName
  rw [base_plain hne hs, trimSuffix_of_suffix hx]

theorem present_iff {wl : List Str} {entries : List DirEntry} (hreal : RealEntries entries) {v : Str} (hv : v ∈ wl) :
    v ∈ ((qualifying wl entries).map pluginName).eraseDups ↔ Present entries v := by
  rw [List.mem_eraseDups, List.mem_map]
  constructor
  · rintro ⟨n, hn, rfl⟩
    obtain ⟨e, he, ⟨h1, h2, _⟩, rfl⟩ := mem_qualifying.mp hn
    exact ⟨e, he, h1, (pluginName_plain h2 (hreal e he)).symm⟩
  · rintro ⟨e, he, h1, h2⟩
    have hs := hreal e he
    have hsuf : fileNameExt <:+ e.name := by rw [h2]; exact List.suffix_append _ _
    have hpn : pluginName e.name = v := List.append_cancel_right ((pluginName_plain hsuf hs).trans h2)
    exact ⟨e.name, mem_qualifying.mpr ⟨e, he, ⟨h1, hsuf, .inr (by rw [hpn]; exact hv)⟩, rfl⟩, hpn⟩

theorem eraseDups_nodup {l : List Str} : l.eraseDups.Nodup := by
  have hsub : ∀ (n : Nat) (l : List Str), l.length ≤ n → l.eraseDups.Nodup := by
    intro n
    induction n with
    | zero => intro l hl; have : l = [] := List.length_eq_zero_iff.mp (by omega); subst this; simp
    | succ n ih =>
      intro l hl
      cases l with
      | nil => simp
      | cons a r =>
        rw [List.eraseDups_cons, List.nodup_cons]
        refine ⟨?_, ih _ ?_⟩
        · rw [List.mem_eraseDups]; simp
        · have := List.length_filter_le (fun b => !b == a) r
          simp only [List.length_cons] at hl
          omega
  exact hsub _ l (Nat.le_refl _)

theorem found_perm {wl : List Str} {entries : List DirEntry} (hwl : wl ≠ []) :
    ((qualifying wl entries).map pluginName).eraseDups.length = wl.length ↔ ((qualifying wl entries).map pluginName).eraseDups.Perm wl := by
  constructor
  · intro hl
    have hs : ((qualifying wl entries).map pluginName).eraseDups ⊆ wl := by
      intro v hv
      rw [List.mem_eraseDups, List.mem_map] at hv
      obtain ⟨n, hn, rfl⟩ := hv
      obtain ⟨e, he, ⟨_, _, h⟩, rfl⟩ := mem_qualifying.mp hn
      exact h.resolve_left hwl
    exact (eraseDups_nodup.subperm hs).perm_of_length_le (by omega)
  · exact fun h => h.length_eq

end

section
variable [GoRuntime]

/-- **C30.** A dynamic load considers exactly the non-directories of the plugin directory that are named `*.so` and, if there is a whitelist, are named in it. -/
theorem C30_considered (cfg : Config) (absDir : Str) (entries : List DirEntry) (f : Str) :
    f ∈ listedFiles cfg absDir entries ↔ ∃ e ∈ entries, Considered cfg.whitelist e ∧ f = joinPath absDir e.name := by
  unfold listedFiles
  rw [List.mem_map]
  constructor
  · rintro ⟨n, hn, rfl⟩
    obtain ⟨e, he, h, rfl⟩ := mem_qualifying.mp hn
    exact ⟨e, he, h, rfl⟩
  · rintro ⟨e, he, h, rfl⟩
    exact ⟨e.name, mem_qualifying.mpr ⟨e, he, h, rfl⟩, rfl⟩

/-- The plan of a dynamic call whose listing succeeds but whose whitelist check fails. -/
theorem plan_notFound {cfg : Config} (hst : cfg.static = none) (env : Env) (k : Kind) (old : Option Manager) (n0 : Nat) {absDir : Str} {entries : List DirEntry}
    (hdir : env.dir = some (absDir, entries)) {e : Err} (he : whitelistError cfg.whitelist (qualifying cfg.whitelist entries) = some e) :
    (plan cfg env k old n0).res = .err e ∧ (plan cfg env k old n0).acts = [] := by
  cases k with
  | load => simp [plan, apiLoad, hst, loadPluginsImpl, hdir, he, M.throw]
  | reload x => simp [plan, apiReload, loadPluginsImpl, hdir, he, M.throw, bind, M.bind]

/-- **C30.** With a non-empty whitelist, if a listed plugin is missing from the directory, the call fails, naming exactly the missing ones, and does nothing. -/
theorem C30_missing {cfg : Config} (hst : cfg.static = none) (m : Machine) (env : Env) (k : Kind) {absDir : Str} {entries : List DirEntry}
    (hdir : env.dir = some (absDir, entries)) (hreal : RealEntries entries) {v : Str} (hv : v ∈ cfg.whitelist) (hmiss : ¬ Present entries v) :
    ∃ missing, (plan cfg env k m.current m.next).res = .err (.notFound missing) ∧ (plan cfg env k m.current m.next).acts = [] ∧
      ∀ w, w ∈ missing ↔ w ∈ cfg.whitelist ∧ ¬ Present entries w := by
  have hwl : cfg.whitelist ≠ [] := by intro h; rw [h] at hv; cases hv
  have hne : ((qualifying cfg.whitelist entries).map pluginName).eraseDups.length ≠ cfg.whitelist.length := by
    intro hl
    have := ((found_perm hwl).mp hl).mem_iff (a := v)
    exact hmiss ((present_iff hreal hv).mp (this.mpr hv))
  have he : whitelistError cfg.whitelist (qualifying cfg.whitelist entries) = some (.notFound
      (cfg.whitelist.filter (fun v => !((qualifying cfg.whitelist entries).map pluginName).eraseDups.contains v))) := by
    unfold whitelistError
    rw [if_neg (by simpa using hwl)]
    simp only
    rw [if_pos hne]
  obtain ⟨h1, h2⟩ := plan_notFound hst env k m.current m.next hdir he
  refine ⟨_, h1, h2, ?_⟩
  intro w
  rw [List.mem_filter]
  constructor
  · rintro ⟨hw, hc⟩
    refine ⟨hw, fun hp => ?_⟩
    have := (present_iff hreal hw).mpr hp
    simp only [Bool.not_eq_true', List.contains_eq_mem, decide_eq_false_iff_not] at hc
    exact hc this
  · rintro ⟨hw, hp⟩
    refine ⟨hw, ?_⟩
    simp only [Bool.not_eq_true', List.contains_eq_mem, decide_eq_false_iff_not]
    exact fun h => hp ((present_iff hreal hw).mp h)

/-- A whitelist without repetitions all of whose plugins are present passes the test. -/
theorem whitelist_ok {wl : List Str} {entries : List DirEntry} (hreal : RealEntries entries) (hnd : wl.Nodup) (hall : ∀ v ∈ wl, Present entries v) :
    whitelistError wl (qualifying wl entries) = none := by
  unfold whitelistError
  split
  · rfl
  · rename_i hwl
    have hwl' : wl ≠ [] := by simpa using hwl
    simp only
    rw [if_neg]
    simp only [ne_eq, Classical.not_not]
    refine (found_perm hwl').mpr ((List.perm_ext_iff_of_nodup eraseDups_nodup hnd).mpr ?_)
    intro v
    constructor
    · intro hv
      rw [List.mem_eraseDups, List.mem_map] at hv
      obtain ⟨n, hn, rfl⟩ := hv
      obtain ⟨e, he, ⟨_, _, h⟩, rfl⟩ := mem_qualifying.mp hn
      exact h.resolve_left hwl'
    · intro hv; exact (present_iff hreal hv).mpr (hall v hv)

/-- **C30.** With a whitelist without repetitions all of whose plugins are present, the call does not fail for this reason. -/
theorem C30_no_false_alarm {cfg : Config} (hcfg : cfg.OK) (hst : cfg.static = none) {m : Machine} (h : Reachable cfg m) (env : Env) (k : Kind) {absDir : Str} {entries : List DirEntry}
    (hdir : env.dir = some (absDir, entries)) (hreal : RealEntries entries) (hnd : cfg.whitelist.Nodup) (hall : ∀ v ∈ cfg.whitelist, Present entries v) (missing : List Str) :
    (plan cfg env k m.current m.next).res ≠ .err (.notFound missing) := by
  intro hr
  have hv := view hcfg h env k
  have hwe := whitelist_ok hreal hnd hall
  generalize plan cfg env k m.current m.next = p at hv hr
  cases hv with
  | listErr e dyn why acts res next built =>
    rcases why with ⟨_, rfl⟩ | ⟨a, es, hd, hw⟩
    · rw [hr] at res; cases res
    · rw [hdir] at hd; cases hd; rw [hwe] at hw; cases hw
  | empty absDir entries dyn dir wl none acts res next built => rw [hr] at res; cases res
  | escaped ext panics acts res next built => rw [hr] at res; cases res
  | staticMissing sps e st => rw [hst] at st; cases st
  | staticErr sps sel st => rw [hst] at st; cases st
  | staticCb sps sel st => rw [hst] at st; cases st
  | staticOk sps sel st => rw [hst] at st; cases st
  | dynErr absDir' entries' dyn dir wl some s0 sb f cr failed body acts res next built =>
    rw [hr] at res
    injection res with he
    cases failed with
    | early base why =>
      cases f with
      | inl e => simp only [errOf] at he; subst he; exact why.elim
      | inr q => simp [errOf] at he
    | late s1 done why =>
      cases f with
      | inl e => simp only [errOf] at he; subst he; exact why.fail.elim
      | inr q => simp [errOf] at he
  | dynCb absDir entries dyn dir wl some s0 s1 s cr done cbs n o rest split bad good acts res next built => rw [hr] at res; cases res
  | dynOk absDir entries dyn dir wl some s0 s1 s d cr done good details acts res next built => rw [hr] at res; cases res

/-- **C30.** With a whitelist, a published manager holds exactly the plugins of the whitelist. -/
theorem C30_loaded_exactly {cfg : Config} (hcfg : cfg.OK) (hst : cfg.static = none) {m : Machine} (h : Reachable cfg m) (env : Env) {k : Kind} {pm : Manager}
    (hp : .publish pm ∈ (plan cfg env k m.current m.next).acts) (hreal : ∀ absDir entries, env.dir = some (absDir, entries) → RealEntries entries)
    (hwl : cfg.whitelist ≠ []) :
    (pm.plugins.map (fun p => name2key p.name)).Perm (cfg.whitelist.map name2key) := by
  obtain ⟨absDir', entries', hd', hperm⟩ := C15_exactly_listed hcfg hst h env hp
  obtain ⟨absDir, entries, s0, s1, s, d, hd, hw, cr, done, hdet, hres, rfl, _⟩ := (view hcfg h env k).dynamic hst hp
  rw [hd'] at hd; cases hd
  have hr := hreal _ _ hd'
  refine hperm.trans ?_
  have hfound : ((qualifying cfg.whitelist entries').map pluginName).eraseDups.Perm cfg.whitelist := by
    refine (found_perm hwl).mp ?_
    unfold whitelistError at hw
    rw [if_neg (by simpa using hwl)] at hw
    simp only at hw
    split at hw
    · cases hw
    · rename_i hh; simpa using hh
  have hmap : (listedFiles cfg absDir' entries').map (fun f => name2key (pluginName f)) = ((qualifying cfg.whitelist entries').map pluginName).map name2key := by
    unfold listedFiles
    rw [List.map_map, List.map_map]
    refine List.map_congr_left ?_
    intro n hn
    obtain ⟨e, he, ⟨_, h2, _⟩, rfl⟩ := mem_qualifying.mp hn
    simp only [Function.comp]
    rw [pluginName_joinPath h2 (hr e he)]
  rw [hmap]
  have hnd : ((qualifying cfg.whitelist entries').map pluginName).Nodup := by
    have := done.stage1.nodup
    have e : (listedFiles cfg absDir' entries').map fileKey = (listedFiles cfg absDir' entries').map (fun f => name2key (pluginName f)) := rfl
    rw [e, hmap] at this
    exact List.Nodup.of_map _ this
  refine List.Perm.map _ ?_
  refine (List.perm_ext_iff_of_nodup hnd (hfound.nodup_iff.mp eraseDups_nodup)).mpr ?_
  intro v
  rw [← hfound.mem_iff, List.mem_eraseDups]

/-- **C30.** With a whitelist that repeats an entry every dynamic load fails, although nothing may be missing. -/
theorem C30_repeated_entry_fails {cfg : Config} (hst : cfg.static = none) (m : Machine) (env : Env) (k : Kind) (hrep : ¬ cfg.whitelist.Nodup) :
    (∃ e, (plan cfg env k m.current m.next).res = .err e) ∧ (plan cfg env k m.current m.next).acts = [] := by
  have hwl : cfg.whitelist ≠ [] := by intro h; rw [h] at hrep; exact hrep List.nodup_nil
  cases hdir : env.dir with
  | none =>
    cases k with
    | load => simp [plan, apiLoad, hst, loadPluginsImpl, hdir, M.throw]
    | reload x => simp [plan, apiReload, loadPluginsImpl, hdir, M.throw, bind, M.bind]
  | some de =>
    obtain ⟨absDir, entries⟩ := de
    have hne : ((qualifying cfg.whitelist entries).map pluginName).eraseDups.length ≠ cfg.whitelist.length := by
      intro hl
      exact hrep (((found_perm hwl).mp hl).nodup_iff.mp eraseDups_nodup)
    have he : whitelistError cfg.whitelist (qualifying cfg.whitelist entries) = some (.notFound
        (cfg.whitelist.filter (fun v => !((qualifying cfg.whitelist entries).map pluginName).eraseDups.contains v))) := by
      unfold whitelistError
      rw [if_neg (by simpa using hwl)]
      simp only
      rw [if_pos hne]
    obtain ⟨h1, h2⟩ := plan_notFound hst env k m.current m.next hdir he
    exact ⟨⟨_, h1⟩, h2⟩

/-! ### C31, C32 -/

/-- A publishing call under static linking. -/
theorem View.static {cfg : Config} {env : Env} {k : Kind} {old : Option Manager} {n0 : Nat} {p : Plan} (h : View cfg env k old n0 p) {sps : GoMap StaticPlugin} (hst : cfg.static = some sps)
    (hk : refused cfg k = false) {pm : Manager} (hp : Act.publish pm ∈ p.acts) :
    ∃ sel s0 s1 s d, staticSelection cfg sps = .ok sel ∧ Created cfg env n0 s0 ∧ StaticDone n0 env.it sel env.data s0 s1 s ∧
      d.entries = sel.entries.map (fun e => (e.1, "ok".toList)) ∧ p.res = .ok d ∧ pm = s.pm := by
  obtain ⟨hb, s0', s1', s', d', hs⟩ := h.published hk hp
  have hdyn : cfg.static = none ∨ k ≠ .load → False := by
    rintro (h | h)
    · rw [hst] at h; cases h
    · cases k with
      | load => exact h rfl
      | reload x => simp [refused, hst] at hk
  cases h with
  | listErr e dyn why acts res next built => exact (hdyn dyn).elim
  | empty absDir entries dyn => exact (hdyn dyn).elim
  | escaped ext panics acts res next built => rw [acts] at hp; simp at hp
  | staticMissing sps e st kl sel acts res next built => rw [acts] at hp; simp at hp
  | staticErr sps sel st kl hsel s0 sb f cr failed body acts res next built => rw [hs.res] at res; cases res
  | staticCb sps sel st kl hsel s0 s1 s cr done cbs n o rest split bad good acts res next built => rw [hs.res] at res; cases res
  | dynErr absDir entries dyn => exact (hdyn dyn).elim
  | dynCb absDir entries dyn => exact (hdyn dyn).elim
  | dynOk absDir entries dyn => exact (hdyn dyn).elim
  | staticOk sps' sel st kl hsel s0 s1 s d cr done good details acts res next built =>
    rw [hst] at st; cases st
    exact ⟨sel, s0, s1, s, d, hsel, cr, done, details, res, by rw [hb, built]⟩

/-- **C31.** A successful `LoadPlugins` under static linking reports "ok" for exactly the selected plugins. -/
theorem C31_static_details {cfg : Config} (hcfg : cfg.OK) {sps : GoMap StaticPlugin} (hst : cfg.static = some sps) {m : Machine} (h : Reachable cfg m) (env : Env) {k : Kind}
    (hk : refused cfg k = false) {pm : Manager} (hp : .publish pm ∈ (plan cfg env k m.current m.next).acts) :
    ∃ d, (plan cfg env k m.current m.next).res = .ok d ∧
      ∀ n v, d.get? n = some v ↔ v = "ok".toList ∧ ∃ sp, Selected cfg sps n sp := by
  obtain ⟨sel, s0, s1, s, d, hsel, cr, done, hdet, hres, rfl⟩ := (view hcfg h env k).static hst hk hp
  refine ⟨d, hres, ?_⟩
  intro n v
  rw [GoMap.get?_eq_some, hdet, List.mem_map]
  constructor
  · rintro ⟨⟨n', sp⟩, he, heq⟩
    simp only [Prod.mk.injEq] at heq
    obtain ⟨rfl, rfl⟩ := heq
    exact ⟨rfl, sp, (staticSelection_ok hsel n' sp).mp (GoMap.get?_eq_some.mpr he)⟩
  · rintro ⟨rfl, sp, hs⟩
    exact ⟨(n, sp), GoMap.get?_eq_some.mp ((staticSelection_ok hsel n sp).mpr hs), rfl⟩

/-- **C31.** With a whitelist that names a plugin that is not linked, `LoadPlugins` does not succeed and does nothing. -/
theorem C31_static_missing {cfg : Config} (hcfg : cfg.OK) {sps : GoMap StaticPlugin} (hst : cfg.static = some sps) {m : Machine} (h : Reachable cfg m) (env : Env)
    {n : Str} (hn : n ∈ cfg.whitelist) (hmiss : sps.get? n = none) :
    (plan cfg env .load m.current m.next).acts = [] ∧ ∀ d, (plan cfg env .load m.current m.next).res ≠ .ok d := by
  have hsel : ∀ sel, staticSelection cfg sps ≠ .ok sel := by
    intro sel hs
    have hwl : cfg.whitelist.isEmpty = false := by
      cases hc : cfg.whitelist with
      | nil => rw [hc] at hn; cases hn
      | cons a r => rfl
    have key : ∀ (l : List Str) (acc sel : GoMap StaticPlugin), n ∈ l → selectStatic sps l acc ≠ .ok sel := by
      intro l
      induction l with
      | nil => intro acc sel hn; cases hn
      | cons a r ih =>
        intro acc sel hn' hs
        unfold selectStatic at hs
        cases ha : sps.get? a with
        | none => rw [ha] at hs; cases hs
        | some q =>
          rw [ha] at hs
          rcases List.mem_cons.mp hn' with rfl | hr
          · rw [hmiss] at ha; cases ha
          · exact ih _ sel hr hs
    unfold staticSelection at hs
    rw [hwl] at hs
    exact key _ _ _ hn hs
  have hv := view hcfg h env .load
  generalize plan cfg env .load m.current m.next = p at hv ⊢
  have hdyn : cfg.static = none ∨ Kind.load ≠ .load → False := by
    rintro (h | h)
    · rw [hst] at h; cases h
    · exact h rfl
  cases hv with
  | listErr e dyn why acts res next built => exact (hdyn dyn).elim
  | empty absDir entries dyn => exact (hdyn dyn).elim
  | escaped ext panics acts res next built => exact ⟨acts, by rw [res]; simp⟩
  | staticMissing sps e st kl sel acts res next built => exact ⟨acts, by rw [res]; simp⟩
  | staticErr sps' sel st kl hs => rw [hst] at st; cases st; exact absurd hs (hsel sel)
  | staticCb sps' sel st kl hs => rw [hst] at st; cases st; exact absurd hs (hsel sel)
  | staticOk sps' sel st kl hs => rw [hst] at st; cases st; exact absurd hs (hsel sel)
  | dynErr absDir entries dyn => exact (hdyn dyn).elim
  | dynCb absDir entries dyn => exact (hdyn dyn).elim
  | dynOk absDir entries dyn => exact (hdyn dyn).elim

/-- **C32** (for plugin names that are distinct up to case, `cfg.OK`). After a successful static load every selected plugin is found by `FindPlugin` under its name, with its
own functions, and there are no others. -/
theorem C32_static_found_partial {cfg : Config} (hcfg : cfg.OK) {sps : GoMap StaticPlugin} (hst : cfg.static = some sps) {m : Machine} (h : Reachable cfg m) (env : Env) {k : Kind}
    (hk : refused cfg k = false) {pm : Manager} (hp : .publish pm ∈ (plan cfg env k m.current m.next).acts) :
    (∀ n sp, Selected cfg sps n sp → ∃ p, pm.findPlugin sp.name = some p ∧ p.name = sp.name ∧ p.code = sp.code ∧ p.unchanged = false) ∧
    (∀ p ∈ pm.plugins, ∃ n sp, Selected cfg sps n sp ∧ sp.name = p.name ∧ sp.code = p.code) := by
  obtain ⟨sel, s0, s1, s, d, hsel, cr, done, hdet, hres, rfl⟩ := (view hcfg h env k).static hst hk hp
  have hfound : ∀ n sp, sel.get? n = some sp → ∃ q dp bd, s1.pm.pluginMap.get? (name2key sp.name) = some q ∧ BuiltFromStatic sp q ∧
      s.pm.pluginMap.get? (name2key sp.name) = some { q with deps := dp, bound := bd } := by
    intro n sp hs
    obtain ⟨sp', q, h1, h2, h3⟩ := done.stage1.new n (GoMap.mem_keys.mpr ⟨sp, hs⟩)
    rw [hs] at h1; cases h1
    obtain ⟨dp, bd, h4⟩ := done.fin.frame.same.get _ q h2
    exact ⟨q, dp, bd, h2, h3, h4⟩
  constructor
  · intro n sp hs
    obtain ⟨q, dp, bd, _, hb, h4⟩ := hfound n sp ((staticSelection_ok hsel n sp).mpr hs)
    exact ⟨_, h4, hb.name, hb.code, hb.changed⟩
  · intro p hp
    obtain ⟨key, hkp⟩ := GoMap.mem_vals.mp (done.good.ordered.mem_iff.mp hp)
    obtain ⟨q, dp, bd, hq, _⟩ := done.fin.frame.same.get' hkp
    obtain ⟨n, hn, sp, hs, hkey⟩ := done.stage1.only key q hq
    obtain ⟨q', dp', bd', _, hb, h4⟩ := hfound n sp hs
    rw [hkey, hkp] at h4
    injection h4 with h4
    exact ⟨n, sp, (staticSelection_ok hsel n sp).mp hs, by rw [h4]; exact hb.name.symm, by rw [h4]; exact hb.code.symm⟩

/-! ### C28 -/

/-- The plugin in file `f` is not kept from the current manager. -/
def NotKeptFile (env : Env) (m : Machine) (f : Str) : Prop :=
  ∀ old data, previous m f = some old → env.fs.readFile f = some data → ¬ NotReloadable old ∧ old.sha ≠ GoRuntime.sha1 data

/-- **C28.** If a load fails because functions are missing, the error names a listed plugin that was opened and lists exactly the functions missing from it; nothing happens
after that plugin was opened except that the plugins already loaded are released: no hook of it is called. -/
theorem C28_error_is_exact {cfg : Config} (hcfg : cfg.OK) (hst : cfg.static = none) {m : Machine} (h : Reachable cfg m) (env : Env) (k : Kind) {n : Str} {l : List Str}
    (hr : (plan cfg env k m.current m.next).res = .err (.loading n (.missing l))) :
    ∃ absDir entries, env.dir = some (absDir, entries) ∧ ∃ f ∈ listedFiles cfg absDir entries, n = pluginName f ∧
      (∃ syms code, env.fs.openPlugin f = .image syms code ∧ l = requiredFunctions.filter (fun s => (syms s).isNone) ∧ l ≠ []) ∧
      ∃ pre, ∃ rel : List Nat, (plan cfg env k m.current m.next).acts = pre ++ .openPlugin f :: rel.map Act.release := by
  have hv := view hcfg h env k
  generalize plan cfg env k m.current m.next = p at hv hr ⊢
  cases hv.err hr with
  | list acts what => rcases what with h | ⟨l, h⟩ | ⟨n, h⟩ <;> cases h
  | callback what => cases what
  | early absDir entries dyn dir s0 sb f cr base why what acts built =>
    refine ⟨absDir, entries, dir, ?_⟩
    cases f with
    | inl e =>
      simp only [errOf] at what; subst what
      obtain ⟨_, f, hf, rfl, _, ⟨syms, code, ho, hl, hne⟩, hlast⟩ := why
      refine ⟨f, hf, rfl, ⟨syms, code, ho, hl, hne⟩, ?_⟩
      have := hlast l rfl
      obtain ⟨pre, hpre⟩ := List.getLast?_eq_some_iff.mp this
      refine ⟨pre, (freeOrder env.it sb.pm).map (·.inst), ?_⟩
      rw [acts, hpre]
      simp [cleanupActs, Function.comp_def]
    | inr q => simp [errOf] at what
  | earlyStatic sps sel st hsel s0 sb f cr base why what acts built => rw [hst] at st; cases st
  | late s0 s1 sb f cr keyed why what acts built body =>
    cases f with
    | inl e => simp only [errOf] at what; subst what; exact why.fail.elim
    | inr q => simp [errOf] at what

/-- **C28.** A load that has to open a plugin file in which a required function is missing or has the wrong type does not succeed. -/
theorem C28_incomplete_never_loads {cfg : Config} (hcfg : cfg.OK) (hst : cfg.static = none) {m : Machine} (h : Reachable cfg m) (env : Env) (k : Kind)
    {absDir : Str} {entries : List DirEntry} (hdir : env.dir = some (absDir, entries)) {f : Str} (hf : f ∈ listedFiles cfg absDir entries) (hnew : NotKeptFile env m f)
    {syms : Str → Option GoType} {code : Code} (hopen : env.fs.openPlugin f = .image syms code) {s : Str} {sig : Signature} (hs : (s, sig) ∈ requiredSignatures)
    (hmiss : ¬ HasType syms s sig.typ) : ∀ d, (plan cfg env k m.current m.next).res ≠ .ok d := by
  intro d hr
  have hv := view hcfg h env k
  have hgood := sound_old hcfg h
  have hk : refused cfg k = false := by cases k <;> simp [refused, hst]
  rcases hv.success hk hr with ⟨_, _, _, a, es, hd, hnil⟩ | ⟨_, hpub⟩
  · rw [hdir] at hd; cases hd; rw [hnil] at hf; cases hf
  · have hp : Act.publish (plan cfg env k m.current m.next).built ∈ (plan cfg env k m.current m.next).acts := mem_publishes.mp (by rw [hpub]; simp)
    obtain ⟨absDir', entries', s0, s1, s', d', hd, _, cr, done, _, _, _, _⟩ := hv.dynamic hst hp
    rw [hdir] at hd; cases hd
    obtain ⟨data, p, hread, hget, hfate⟩ := done.stage1.fate f hf
    have hprev : ∀ om old, m.current = some om → om.pluginMap.get? (fileKey f) = some old → ¬ NotReloadable old ∧ old.sha ≠ GoRuntime.sha1 data := by
      intro om old ho hg
      refine hnew old data ?_ hread
      unfold previous; rw [ho]; exact hg
    cases hfate with
    | notReloadable om old ho hk hr' hpe =>
      exact (hprev om old ho hk).1 ((faithful_notReloadable ((hgood om ho).faithful _ _ hk)).mpr hr')
    | unchanged om old ho hk hr' hs' hpe => exact (hprev om old ho hk).2 hs'.symm
    | renewed hno hb =>
      obtain ⟨syms', hi, _, hl⟩ := hb.image
      rw [hopen] at hi; cases hi
      exact hmiss (hl s sig hs)

/-- **C28**, static linking: the error names a selected plugin and lists exactly its nil functions. -/
theorem C28_static_error_is_exact {cfg : Config} (hcfg : cfg.OK) {sps : GoMap StaticPlugin} (hst : cfg.static = some sps) {m : Machine} (h : Reachable cfg m) (env : Env) {k : Kind}
    (hk : refused cfg k = false) {n : Str} {l : List Str} (hr : (plan cfg env k m.current m.next).res = .err (.loading n (.missing l))) :
    ∃ sp, Selected cfg sps n sp ∧ l = requiredFunctions.filter sp.missing ∧ l ≠ [] := by
  have hv := view hcfg h env k
  generalize plan cfg env k m.current m.next = p at hv hr ⊢
  cases hv.err hr with
  | list acts what => rcases what with h | ⟨l, h⟩ | ⟨n, h⟩ <;> cases h
  | callback what => cases what
  | early absDir entries dyn dir s0 sb f cr base why what acts built =>
    rcases dyn with h | h
    · rw [hst] at h; cases h
    · cases k with
      | load => exact absurd rfl h
      | reload x => simp [refused, hst] at hk
  | earlyStatic sps' sel st hsel s0 sb f cr base why what acts built =>
    rw [hst] at st; cases st
    cases f with
    | inl e =>
      simp only [errOf] at what; subst what
      obtain ⟨sp, h1, h2, h3⟩ := why
      exact ⟨sp, (staticSelection_ok hsel n sp).mp h1, h2, h3⟩
    | inr q => simp [errOf] at what
  | late s0 s1 sb f cr keyed why what acts built body =>
    cases f with
    | inl e => simp only [errOf] at what; subst what; exact why.fail.elim
    | inr q => simp [errOf] at what

/-- **C28**, static linking: a load of a selected plugin with a nil function does not succeed. -/
theorem C28_static_incomplete_never_loads {cfg : Config} (hcfg : cfg.OK) {sps : GoMap StaticPlugin} (hst : cfg.static = some sps) {m : Machine} (h : Reachable cfg m) (env : Env) {k : Kind}
    (hk : refused cfg k = false) {n s : Str} {sp : StaticPlugin} (hsp : Selected cfg sps n sp) (hs : s ∈ requiredFunctions) (hmiss : sp.missing s = true) :
    ∀ d, (plan cfg env k m.current m.next).res ≠ .ok d := by
  intro d hr
  have hv := view hcfg h env k
  have hload : k = .load := by
    cases k with
    | load => rfl
    | reload x => simp [refused, hst] at hk
  rcases hv.success hk hr with ⟨_, hb, _, a, es, hd, hnil⟩ | ⟨_, hpub⟩
  · -- the empty case cannot occur under static linking
    subst hload
    cases hv with
    | staticOk sps' sel st kl hsel s0 s1 s' d' cr done good details acts res next built =>
      rw [hst] at st; cases st
      obtain ⟨sp', q, h1, _, h3⟩ := done.stage1.new n (GoMap.mem_keys.mpr ⟨sp, (staticSelection_ok hsel n sp).mpr hsp⟩)
      rw [(staticSelection_ok hsel n sp).mpr hsp] at h1; cases h1
      have := h3.complete
      unfold staticMissing at this
      rw [List.filter_eq_nil_iff] at this
      exact this s hs hmiss
    | empty _ _ dyn => rcases dyn with h | h
                       · rw [hst] at h; cases h
                       · exact h rfl
    | dynOk _ _ dyn => rcases dyn with h | h
                       · rw [hst] at h; cases h
                       · exact h rfl
    | listErr e dyn why acts res => rw [hr] at res; cases res
    | escaped ext panics acts res => rw [hr] at res; cases res
    | staticMissing sps e st kl sel acts res => rw [hr] at res; cases res
    | dynErr absDir entries dyn dir wl some s0 sb f cr failed body acts res => rw [hr] at res; cases res
    | staticErr sps sel st kl hsel s0 sb f cr failed body acts res => rw [hr] at res; cases res
    | dynCb absDir entries dyn dir wl some s0 s1 s cr done cbs n o rest split bad good acts res => rw [hr] at res; cases res
    | staticCb sps sel st kl hsel s0 s1 s cr done cbs n o rest split bad good acts res => rw [hr] at res; cases res
  · have hp : Act.publish (plan cfg env k m.current m.next).built ∈ (plan cfg env k m.current m.next).acts := mem_publishes.mp (by rw [hpub]; simp)
    obtain ⟨sel, s0, s1, s', d', hsel, cr, done, _, _, _⟩ := hv.static hst hk hp
    obtain ⟨sp', q, h1, _, h3⟩ := done.stage1.new n (GoMap.mem_keys.mpr ⟨sp, (staticSelection_ok hsel n sp).mpr hsp⟩)
    rw [(staticSelection_ok hsel n sp).mpr hsp] at h1; cases h1
    have := h3.complete
    unfold staticMissing at this
    rw [List.filter_eq_nil_iff] at this
    exact this s hs hmiss

/-! ### C27 -/

/-- **C27** (violated). A load that has to open a listed file whose plugin name contains a letter that is not lower-case never succeeds, however well the plugins behave. -/
theorem C27_upper_case_never_loads {cfg : Config} (hcfg : cfg.OK) (hst : cfg.static = none) {m : Machine} (h : Reachable cfg m) (env : Env) (k : Kind)
    {absDir : Str} {entries : List DirEntry} (hdir : env.dir = some (absDir, entries)) {f : Str} (hf : f ∈ listedFiles cfg absDir entries) (hnew : NotKeptFile env m f)
    (hup : (pluginName f).map GoRuntime.toLower ≠ pluginName f) :
    ∀ d, (plan cfg env k m.current m.next).res ≠ .ok d := by
  intro d hr
  have hv := view hcfg h env k
  have hgood := sound_old hcfg h
  have hk : refused cfg k = false := by cases k <;> simp [refused, hst]
  rcases hv.success hk hr with ⟨_, _, _, a, es, hd, hnil⟩ | ⟨_, hpub⟩
  · rw [hdir] at hd; cases hd; rw [hnil] at hf; cases hf
  · have hp : Act.publish (plan cfg env k m.current m.next).built ∈ (plan cfg env k m.current m.next).acts := mem_publishes.mp (by rw [hpub]; simp)
    obtain ⟨absDir', entries', s0, s1, s', d', hd, _, cr, done, _, _, _, _⟩ := hv.dynamic hst hp
    rw [hdir] at hd; cases hd
    obtain ⟨data, p, hread, hget, hfate⟩ := done.stage1.fate f hf
    have hprev : ∀ om old, m.current = some om → om.pluginMap.get? (fileKey f) = some old → ¬ NotReloadable old ∧ old.sha ≠ GoRuntime.sha1 data := by
      intro om old ho hg
      refine hnew old data ?_ hread
      unfold previous; rw [ho]; exact hg
    cases hfate with
    | notReloadable om old ho hk hr' hpe =>
      exact (hprev om old ho hk).1 ((faithful_notReloadable ((hgood om ho).faithful _ _ hk)).mpr hr')
    | unchanged om old ho hk hr' hs' hpe => exact (hprev om old ho hk).2 hs'.symm
    | renewed hno hb =>
      have := hb.lower
      rw [hb.name] at this
      exact hup this

end

/-! ### The hypotheses are met -/

section Examples
open Demo
attribute [local instance] Demo.rt

/-- A whitelist. -/
def cfgW : Config := { cfg with whitelist := ["base".toList] }
theorem cfgW_ok : cfgW.OK := by intro sps h; cases h

/-- C30: with the whitelist `base` only that plugin is loaded; with `base, gone` nothing is. -/
example : cfgW.OK ∧ ((plan cfgW env1 .load none 0).built.plugins.map (·.name)) = ["base".toList] ∧ publishes (plan cfgW env1 .load none 0).acts ≠ [] ∧
    error? (plan { cfg with whitelist := ["base".toList, "gone".toList] } env1 .load none 0).res = some (.notFound ["gone".toList]) :=
  ⟨cfgW_ok, by decide +kernel, by simp only [ne_eq, ← List.isEmpty_iff, Bool.not_eq_true]; decide +kernel, by decide +kernel⟩

/-- C30: a repeated entry makes the load fail, naming nothing. -/
theorem C30_repeated_entry_witness :
    error? (plan { cfg with whitelist := ["base".toList, "base".toList] } env1 .load none 0).res = some (.notFound []) := by decide +kernel

/-- A directory with the single file `Base.so`, a well-behaved plugin. -/
def envUpper : Env :=
  { env ["Base.so".toList] { readFile := fun _ => some 1, copyOk := fun _ => true, openPlugin := fun _ => .image syms goodBase } with it := .id }

/-- **C27**, a witness: loading the well-behaved plugin `Base.so` fails with a nil dereference; the same plugin in `base.so` loads. -/
theorem C27_violated :
    error? (plan cfg envUpper .load none 0).res = some (.panicked none .nilDeref) ∧
    (details? (plan cfg { envUpper with dir := some ("/p".toList, [⟨"base.so".toList, false⟩]) } .load none 0).res).isSome = true := by
  decide +kernel

/-- C28: a plugin without `OnFree` and `Import`. -/
example : error? (plan cfg (env ["base.so".toList]
      { readFile := fun _ => some 1, copyOk := fun _ => true, openPlugin := fun _ => .image (fun s => if s = "OnFree".toList ∨ s = "Import".toList then none else syms s) goodBase }) .load none 0).res =
    some (.loading "base".toList (.missing ["OnFree".toList, "Import".toList])) := by decide +kernel

/-- Two statically linked plugins whose names differ in case only. -/
def twins : GoMap StaticPlugin :=
  ((GoMap.empty.insert "a".toList ⟨"a".toList, fun _ => false, code true 1 []⟩).insert "A".toList ⟨"A".toList, fun _ => false, code true 2 []⟩)

/-- **C32**, violated: with two static plugins `a` and `A` the load succeeds, `Details` reports both as "ok", but only one plugin is in the manager: the one named `A` is not found. -/
theorem C32_violated :
    (plan { cfg with static := some twins } env0 .load none 0).built.plugins.map (·.name) = ["a".toList] ∧
    ((plan { cfg with static := some twins } env0 .load none 0).built.findPlugin "A".toList).map (·.name) = some "a".toList ∧
    details? (plan { cfg with static := some twins } env0 .load none 0).res = some [("A".toList, "ok".toList), ("a".toList, "ok".toList)] ∧
    (publishes (plan { cfg with static := some twins } env0 .load none 0).acts).length = 1 := by
  decide +kernel

/-- Two static plugins with different names, one of them selected by a whitelist. -/
def pair : GoMap StaticPlugin :=
  ((GoMap.empty.insert "a".toList ⟨"a".toList, fun _ => false, code true 1 []⟩).insert "b".toList ⟨"b".toList, fun _ => false, code true 2 []⟩)

/-- C31, C32: the hypotheses are met. -/
example : ({ cfg with static := some pair } : Config).OK ∧ Selected { cfg with static := some pair } pair "a".toList ⟨"a".toList, fun _ => false, code true 1 []⟩ ∧
    publishes (plan { cfg with static := some pair } env0 .load none 0).acts ≠ [] :=
  ⟨by intro sps h; cases h; unfold StaticOK; decide +kernel, ⟨by rfl, .inl rfl⟩, by simp only [ne_eq, ← List.isEmpty_iff, Bool.not_eq_true]; decide +kernel⟩

/-- C52: an example. -/
example : pluginName (joinPath "/a/b".toList ("x.so".toList ++ fileNameExt)) = "x.so".toList := C52_name_round_trip _ _ (by decide)

end Examples
end Hotswap
