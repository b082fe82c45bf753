import Verif.Proofs.LoadCall

/-! All ways a call of the API can go. -/

namespace Hotswap

variable [GoRuntime]

open M

/-- The counter action of a call. -/
def countActs : Kind → List Act
  | .load => []
  | .reload _ => [.count]

/-- The start of the delayed free of the superseded manager. -/
def spawnActs : Option Manager → List Act
  | none => []
  | some om => [.spawnFree om]

/-- The releases of a manager that is dropped by the load that built it. -/
def cleanupActs (it : Iter) (pm : Manager) : List Act := (freeOrder it pm).map (fun p => .release p.inst)

/-- The manager just created: its identity, its extension, nothing else. -/
structure Created (cfg : Config) (env : Env) (n0 : Nat) (s : LoadSt) : Prop extends Fresh n0 s where
  next : s.next = n0 + 1
  mid : s.pm.mid = n0
  ext : if cfg.hasNewExt then env.ext = .ret s.pm.vault.extension else s.pm.vault.extension = none

/-- The plugin files a dynamic load considers. -/
def listedFiles (cfg : Config) (absDir : Str) (entries : List DirEntry) : List Str :=
  (qualifying cfg.whitelist entries).map (joinPath absDir)

/-- What is selected under static linking. -/
def staticSelection (cfg : Config) (sps : GoMap StaticPlugin) : Except Err (GoMap StaticPlugin) :=
  if cfg.whitelist.isEmpty then .ok sps else selectStatic sps cfg.whitelist .empty

/-- All ways a call can go, from the state (`old`, `n0`). -/
inductive View (cfg : Config) (env : Env) (k : Kind) (old : Option Manager) (n0 : Nat) (p : Plan) : Prop
  /-- the directory cannot be read, or the whitelist is not satisfied -/
  | listErr (e : Err) (dyn : cfg.static = none ∨ k ≠ .load)
      (why : (env.dir = none ∧ e = .directory) ∨
        ∃ absDir entries, env.dir = some (absDir, entries) ∧ whitelistError cfg.whitelist (qualifying cfg.whitelist entries) = some e)
      (acts : p.acts = []) (res : p.res = .err e) (next : p.next = n0) (built : p.built = noManager)
  /-- no file qualifies -/
  | empty (absDir : Str) (entries : List DirEntry) (dyn : cfg.static = none ∨ k ≠ .load) (dir : env.dir = some (absDir, entries))
      (wl : whitelistError cfg.whitelist (qualifying cfg.whitelist entries) = none) (none : listedFiles cfg absDir entries = [])
      (acts : p.acts = countActs k) (res : p.res = .ok .empty) (next : p.next = n0) (built : p.built = noManager)
  /-- the extension newer panics -/
  | escaped (ext : cfg.hasNewExt = true) (panics : env.ext = .panics) (acts : p.acts = []) (res : p.res = .panic .user)
      (next : p.next = n0 + 1) (built : p.built = noManager)
  | dynErr (absDir : Str) (entries : List DirEntry) (dyn : cfg.static = none ∨ k ≠ .load) (dir : env.dir = some (absDir, entries))
      (wl : whitelistError cfg.whitelist (qualifying cfg.whitelist entries) = none) (some : listedFiles cfg absDir entries ≠ [])
      (s0 sb : LoadSt) (f : Fail) (cr : Created cfg env n0 s0)
      (failed : LoadFailed old n0 env.it env.fs (listedFiles cfg absDir entries) env.data s0 f sb) (body : BodyLog old n0 sb)
      (acts : p.acts = sb.acts ++ cleanupActs env.it sb.pm) (res : p.res = .err (errOf f)) (next : p.next = sb.next) (built : p.built = sb.pm)
  | dynCb (absDir : Str) (entries : List DirEntry) (dyn : cfg.static = none ∨ k ≠ .load) (dir : env.dir = some (absDir, entries))
      (wl : whitelistError cfg.whitelist (qualifying cfg.whitelist entries) = none) (some : listedFiles cfg absDir entries ≠ [])
      (s0 s1 s : LoadSt) (cr : Created cfg env n0 s0)
      (done : LoadDone old n0 env.it env.fs (listedFiles cfg absDir entries) env.data s0 s1 s)
      (cbs : List (Nat × Outcome)) (n : Nat) (o : Outcome) (rest : List (Nat × Outcome))
      (split : callbacks cfg env k = cbs ++ (n, o) :: rest) (bad : o ≠ .ok) (good : ∀ c ∈ cbs, c.2 = .ok)
      (acts : p.acts = s.acts ++ cbActs s.pm.mid (old.map (·.mid)) (cbs ++ [(n, o)]) ++ cleanupActs env.it s.pm)
      (res : p.res = .err .callback) (next : p.next = s.next) (built : p.built = s.pm)
  | dynOk (absDir : Str) (entries : List DirEntry) (dyn : cfg.static = none ∨ k ≠ .load) (dir : env.dir = some (absDir, entries))
      (wl : whitelistError cfg.whitelist (qualifying cfg.whitelist entries) = none) (some : listedFiles cfg absDir entries ≠ [])
      (s0 s1 s : LoadSt) (d : Details) (cr : Created cfg env n0 s0)
      (done : LoadDone old n0 env.it env.fs (listedFiles cfg absDir entries) env.data s0 s1 s)
      (good : ∀ c ∈ callbacks cfg env k, c.2 = .ok)
      (details : buildDetails s.pm (listedFiles cfg absDir entries) .empty = .some d)
      (acts : p.acts = s.acts ++ cbActs s.pm.mid (old.map (·.mid)) (callbacks cfg env k) ++ (spawnActs old ++ (.publish s.pm :: countActs k)))
      (res : p.res = .ok d) (next : p.next = s.next) (built : p.built = s.pm)
  | staticMissing (sps : GoMap StaticPlugin) (e : Err) (st : cfg.static = some sps) (kl : k = .load)
      (sel : staticSelection cfg sps = .error e)
      (acts : p.acts = []) (res : p.res = .err e) (next : p.next = n0 + 1) (built : p.built.ordered = [] ∧ p.built.pluginMap = .empty)
  | staticErr (sps sel : GoMap StaticPlugin) (st : cfg.static = some sps) (kl : k = .load) (hsel : staticSelection cfg sps = .ok sel)
      (s0 sb : LoadSt) (f : Fail) (cr : Created cfg env n0 s0)
      (failed : StaticFailed n0 env.it sel env.data s0 f sb) (body : BodyLog none n0 sb)
      (acts : p.acts = sb.acts ++ cleanupActs env.it sb.pm) (res : p.res = .err (errOf f)) (next : p.next = sb.next) (built : p.built = sb.pm)
  | staticCb (sps sel : GoMap StaticPlugin) (st : cfg.static = some sps) (kl : k = .load) (hsel : staticSelection cfg sps = .ok sel)
      (s0 s1 s : LoadSt) (cr : Created cfg env n0 s0)
      (done : StaticDone n0 env.it sel env.data s0 s1 s)
      (cbs : List (Nat × Outcome)) (n : Nat) (o : Outcome) (rest : List (Nat × Outcome))
      (split : callbacks cfg env k = cbs ++ (n, o) :: rest) (bad : o ≠ .ok) (good : ∀ c ∈ cbs, c.2 = .ok)
      (acts : p.acts = s.acts ++ cbActs s.pm.mid none (cbs ++ [(n, o)]) ++ cleanupActs env.it s.pm)
      (res : p.res = .err .callback) (next : p.next = s.next) (built : p.built = s.pm)
  | staticOk (sps sel : GoMap StaticPlugin) (st : cfg.static = some sps) (kl : k = .load) (hsel : staticSelection cfg sps = .ok sel)
      (s0 s1 s : LoadSt) (d : Details) (cr : Created cfg env n0 s0)
      (done : StaticDone n0 env.it sel env.data s0 s1 s)
      (good : ∀ c ∈ callbacks cfg env k, c.2 = .ok)
      (details : d.entries = sel.entries.map (fun e => (e.1, "ok".toList)))
      (acts : p.acts = s.acts ++ cbActs s.pm.mid none (callbacks cfg env k) ++ [.publish s.pm])
      (res : p.res = .ok d) (next : p.next = s.next) (built : p.built = s.pm)

theorem createManager_wp {cfg : Config} {env : Env} {n0 : Nat} {pm : Manager} :
    wp (createManager cfg env) (fun _ s => Created cfg env n0 s)
      (fun f s => f = .inr .user ∧ cfg.hasNewExt = true ∧ env.ext = .panics ∧ s = ⟨n0 + 1, pm, []⟩)
      ⟨n0, pm, []⟩ := by
  unfold createManager
  simp only [wp_bind, wp_alloc]
  cases he : cfg.hasNewExt with
  | false =>
    simp only [Bool.false_eq_true, if_false, wp_modPm]
    exact { lo := Nat.lt_succ_self _, map := rfl, ordered := rfl, acts := rfl, funcs := rfl, types := rfl, bag := rfl,
            next := rfl, mid := rfl, ext := by simp [he, newManager] }
  | true =>
    simp only [if_true]
    cases hx : env.ext with
    | panics => simp
    | ret ext =>
      simp only [wp_modPm]
      exact { lo := Nat.lt_succ_self _, map := rfl, ordered := rfl, acts := rfl, funcs := rfl, types := rfl, bag := rfl,
              next := rfl, mid := rfl, ext := by simp [he, hx, newManager] }

/-- Every file that was loaded is found. -/
theorem LoadDone.find {old : Option Manager} {n0 : Nat} {it : Iter} {fs : FS} {files : List Str} {data : Nat} {s0 s1 s : LoadSt}
    (h : LoadDone old n0 it fs files data s0 s1 s) : ∀ f ∈ files, ∃ p, s.pm.findPlugin (pluginName f) = some p := by
  intro f hf
  obtain ⟨data, p, _, hp, _⟩ := h.stage1.fate f hf
  obtain ⟨d, b, e⟩ := h.fin.frame.same.get _ p hp
  exact ⟨_, e⟩

/-- The part of a dynamic call after the listing, without the counter. -/
theorem loadFiles_wp {cfg : Config} {env : Env} {k : Kind} {old : Option Manager} {n0 : Nat} {files : List Str}
    (hne : files ≠ []) (hgood : ∀ om, old = some om → SoundManager n0 om) :
    wp (loadPluginFiles cfg env (callbacks cfg env k) old files)
      (fun d s' => ∃ s0 s1 s, Created cfg env n0 s0 ∧ LoadDone old n0 env.it env.fs files env.data s0 s1 s ∧
        (∀ c ∈ callbacks cfg env k, c.2 = .ok) ∧ buildDetails s.pm files .empty = some d ∧
        s' = { s with acts := s.acts ++ cbActs s.pm.mid (old.map (·.mid)) (callbacks cfg env k) ++ (spawnActs old ++ [.publish s.pm]) })
      (fun f s' =>
        (f = .inr .user ∧ cfg.hasNewExt = true ∧ env.ext = .panics ∧ s' = ⟨n0 + 1, noManager, []⟩) ∨
        (∃ s0 sb f0, Created cfg env n0 s0 ∧ LoadFailed old n0 env.it env.fs files env.data s0 f0 sb ∧ BodyLog old n0 sb ∧
          f = .inl (errOf f0) ∧ s' = { sb with acts := sb.acts ++ cleanupActs env.it sb.pm }) ∨
        (∃ s0 s1 s cbs n o rest, Created cfg env n0 s0 ∧ LoadDone old n0 env.it env.fs files env.data s0 s1 s ∧
          callbacks cfg env k = cbs ++ (n, o) :: rest ∧ o ≠ .ok ∧ (∀ c ∈ cbs, c.2 = .ok) ∧ f = .inl .callback ∧
          s' = { s with acts := s.acts ++ cbActs s.pm.mid (old.map (·.mid)) (cbs ++ [(n, o)]) ++ cleanupActs env.it s.pm }))
      ⟨n0, noManager, []⟩ := by
  unfold loadPluginFiles
  rw [if_neg hne]
  simp only [wp_bind]
  refine wp_mono createManager_wp ?_ ?_
  · intro _ s0 hcr
    refine wp_mono (loadPlugins_wp env.it env.fs files env.data hgood hcr.toFresh) ?_ ?_
    · rintro _ s ⟨s1, hdone⟩
      refine wp_mono (callbacks_wp env.it old (callbacks cfg env k)) ?_ ?_
      · rintro _ s' ⟨rfl, hok⟩
        simp only [wp_get]
        obtain ⟨d, hd, _⟩ := buildDetails_spec (d0 := .empty) hdone.find
        simp only [hd, wp_bind]
        unfold publishNew
        cases old with
        | none =>
          simp only [wp_bind, wp_mpure, wp_get, wp_emit]
          exact ⟨s0, s1, s, hcr, hdone, hok, hd, by simp [spawnActs]⟩
        | some om =>
          simp only [wp_bind, wp_mpure, wp_get, wp_emit]
          exact ⟨s0, s1, s, hcr, hdone, hok, hd, by simp [spawnActs]⟩
      · rintro f s' ⟨rfl, cbs, n, o, rest, hsplit, hbad, hgd, rfl⟩
        exact .inr (.inr ⟨s0, s1, s, cbs, n, o, rest, hcr, hdone, hsplit, hbad, hgd, rfl, rfl⟩)
    · rintro f s' ⟨f0, sb, hfail, hbody, rfl, rfl⟩
      exact .inr (.inl ⟨s0, sb, f0, hcr, hfail, hbody, rfl, rfl⟩)
  · rintro f s' ⟨rfl, h1, h2, rfl⟩
    exact .inl ⟨rfl, h1, h2, rfl⟩

/-- The selection is part of what is linked. -/
theorem selectStatic_mem {sps acc sel : GoMap StaticPlugin} {l : List Str} (h : selectStatic sps l acc = .ok sel) :
    ∀ n sp, sel.get? n = some sp ↔ (n ∈ l ∧ sps.get? n = some sp) ∨ (n ∉ l ∧ acc.get? n = some sp) := by
  induction l generalizing acc with
  | nil => simp [selectStatic] at h; subst h; simp
  | cons a r ih =>
    unfold selectStatic at h
    cases ha : sps.get? a with
    | none => rw [ha] at h; cases h
    | some q =>
      rw [ha] at h
      simp only at h
      intro n sp
      rw [ih h n sp, GoMap.get?_insert]
      by_cases hna : n = a
      · subst hna
        by_cases hr : n ∈ r
        · simp [hr]
        · simp [hr, ha]
      · simp [hna]

theorem staticSelection_ok {cfg : Config} {sps sel : GoMap StaticPlugin} (h : staticSelection cfg sps = .ok sel) :
    ∀ n sp, sel.get? n = some sp ↔ sps.get? n = some sp ∧ (cfg.whitelist = [] ∨ n ∈ cfg.whitelist) := by
  unfold staticSelection at h
  split at h
  · rename_i hw
    rw [List.isEmpty_iff] at hw
    cases h
    simp [hw]
  · rename_i hw
    rw [List.isEmpty_iff] at hw
    intro n sp
    rw [selectStatic_mem h n sp]
    constructor
    · rintro (⟨h1, h2⟩ | ⟨_, h⟩)
      · exact ⟨h2, .inr h1⟩
      · cases h
    · rintro ⟨h1, h2⟩
      rcases h2 with h2 | h2
      · exact absurd h2 hw
      · exact .inl ⟨h2, h1⟩

omit [GoRuntime] in
/-- Keys of a map injective under `g`: closed under taking submaps. -/
theorem nodup_submap {α : Type} {m m' : GoMap α} {g : α → Str} (h : (m.vals.map g).Nodup)
    (hs : ∀ n v, m'.get? n = some v → m.get? n = some v) : (m'.vals.map g).Nodup := by
  have e : ∀ (x : GoMap α), x.vals.map g = x.entries.map (fun e => g e.2) := by
    intro x; simp [GoMap.vals, List.map_map, Function.comp_def]
  rw [e] at h ⊢
  refine List.Nodup.map_on ?_ ?_
  · intro a ha b hb hab
    have h1 := GoMap.get?_eq_some.mp (hs a.1 a.2 (GoMap.get?_eq_some.mpr ha))
    have h2 := GoMap.get?_eq_some.mp (hs b.1 b.2 (GoMap.get?_eq_some.mpr hb))
    exact List.inj_on_of_nodup_map h h1 h2 hab
  · exact List.Nodup.of_map _ m'.nodup

theorem StaticOK.select {cfg : Config} {sps sel : GoMap StaticPlugin} (hok : StaticOK sps) (h : staticSelection cfg sps = .ok sel) :
    StaticOK sel :=
  nodup_submap (g := fun sp : StaticPlugin => name2key sp.name) hok (fun n v hv => ((staticSelection_ok h n v).mp hv).1)

/-- The configuration is well-formed: statically linked plugins have distinct names up to case. -/
def Config.OK (cfg : Config) : Prop := ∀ sps, cfg.static = some sps → StaticOK sps

theorem static_wp {cfg : Config} {env : Env} {n0 : Nat} {sps : GoMap StaticPlugin} (hok : StaticOK sps) :
    wp (loadStaticPlugins cfg env (callbacks cfg env .load) sps)
      (fun d s' => ∃ sel s0 s1 s, staticSelection cfg sps = .ok sel ∧ Created cfg env n0 s0 ∧ StaticDone n0 env.it sel env.data s0 s1 s ∧
        (∀ c ∈ callbacks cfg env .load, c.2 = .ok) ∧ d.entries = sel.entries.map (fun e => (e.1, "ok".toList)) ∧
        s' = { s with acts := s.acts ++ cbActs s.pm.mid none (callbacks cfg env .load) ++ [.publish s.pm] })
      (fun f s' =>
        (f = .inr .user ∧ cfg.hasNewExt = true ∧ env.ext = .panics ∧ s' = ⟨n0 + 1, noManager, []⟩) ∨
        (∃ e, f = .inl e ∧ staticSelection cfg sps = .error e ∧ s'.acts = [] ∧ s'.next = n0 + 1 ∧ s'.pm.ordered = [] ∧ s'.pm.pluginMap = .empty) ∨
        (∃ sel s0 sb f0, staticSelection cfg sps = .ok sel ∧ Created cfg env n0 s0 ∧ StaticFailed n0 env.it sel env.data s0 f0 sb ∧ BodyLog none n0 sb ∧
          f = .inl (errOf f0) ∧ s' = { sb with acts := sb.acts ++ cleanupActs env.it sb.pm }) ∨
        (∃ sel s0 s1 s cbs n o rest, staticSelection cfg sps = .ok sel ∧ Created cfg env n0 s0 ∧ StaticDone n0 env.it sel env.data s0 s1 s ∧
          callbacks cfg env .load = cbs ++ (n, o) :: rest ∧ o ≠ .ok ∧ (∀ c ∈ cbs, c.2 = .ok) ∧ f = .inl .callback ∧
          s' = { s with acts := s.acts ++ cbActs s.pm.mid none (cbs ++ [(n, o)]) ++ cleanupActs env.it s.pm }))
      ⟨n0, noManager, []⟩ := by
  unfold loadStaticPlugins
  simp only [wp_bind]
  refine wp_mono createManager_wp ?_ ?_
  · intro _ s0 hcr
    change wp (match staticSelection cfg sps with
      | .error e => M.throw e
      | .ok sel => _) _ _ s0
    cases hsel : staticSelection cfg sps with
    | error e =>
      simp only [wp_throw]
      exact .inr (.inl ⟨e, rfl, rfl, hcr.acts, hcr.next, hcr.ordered, hcr.map⟩)
    | ok sel =>
      simp only [wp_bind]
      refine wp_mono (loadStatic_wp env.it sel env.data (hok.select hsel) hcr.toFresh) ?_ ?_
      · rintro _ s ⟨s1, hdone⟩
        refine wp_mono (callbacks_wp env.it none (callbacks cfg env .load)) ?_ ?_
        · rintro _ s' ⟨rfl, hgd⟩
          unfold publishNew
          simp only [wp_bind, wp_mpure, wp_get, wp_emit]
          exact ⟨sel, s0, s1, s, rfl, hcr, hdone, hgd, rfl, rfl⟩
        · rintro f s' ⟨rfl, cbs, n, o, rest, hsplit, hbad, hgd, rfl⟩
          exact .inr (.inr (.inr ⟨sel, s0, s1, s, cbs, n, o, rest, rfl, hcr, hdone, hsplit, hbad, hgd, rfl, rfl⟩))
      · rintro f s' ⟨f0, sb, hfail, hbody, rfl, rfl⟩
        exact .inr (.inr (.inl ⟨sel, s0, sb, f0, rfl, hcr, hfail, hbody, rfl, rfl⟩))
  · rintro f s' ⟨rfl, h1, h2, rfl⟩
    exact .inl ⟨rfl, h1, h2, rfl⟩

omit [GoRuntime] in
/-- Turns a weakest-precondition fact into facts about the result. -/
theorem plan_of_wp {x : M Details} {n0 : Nat} {R : Details → LoadSt → Prop} {F : Fail → LoadSt → Prop}
    (h : wp x R F ⟨n0, noManager, []⟩) {P : Plan → Prop}
    (hok : ∀ d s, R d s → P ⟨s.acts, .ok d, s.next, s.pm⟩)
    (herr : ∀ e s, F (.inl e) s → P ⟨s.acts, .err e, s.next, s.pm⟩)
    (hpanic : ∀ p s, F (.inr p) s → P ⟨s.acts, .panic p, s.next, s.pm⟩) :
    P ⟨(x ⟨n0, noManager, []⟩).2.acts, (x ⟨n0, noManager, []⟩).1, (x ⟨n0, noManager, []⟩).2.next, (x ⟨n0, noManager, []⟩).2.pm⟩ := by
  unfold wp at h
  cases hx : x ⟨n0, noManager, []⟩ with
  | mk e s =>
    rw [hx] at h
    cases e with
    | ok d => exact hok d s h
    | err e => exact herr e s h
    | panic p => exact hpanic p s h

/-- The dynamic part common to `LoadPlugins` and `Reload`. -/
theorem impl_wp {cfg : Config} {env : Env} {k : Kind} {old : Option Manager} {n0 : Nat}
    (hgood : ∀ om, old = some om → SoundManager n0 om) (hdyn : cfg.static = none ∨ k ≠ .load) :
    wp (loadPluginsImpl cfg env (callbacks cfg env k) old)
      (fun d s' => View cfg env k old n0 ⟨s'.acts ++ countActs k, .ok d, s'.next, s'.pm⟩)
      (fun f s' => View cfg env k old n0 ⟨s'.acts, match f with | .inl e => .err e | .inr p => .panic p, s'.next, s'.pm⟩)
      ⟨n0, noManager, []⟩ := by
  unfold loadPluginsImpl
  cases hdir : env.dir with
  | none =>
    simp only [wp_throw]
    exact .listErr .directory hdyn (.inl ⟨hdir, rfl⟩) rfl rfl rfl rfl
  | some de =>
    obtain ⟨absDir, entries⟩ := de
    simp only
    cases hwl : whitelistError cfg.whitelist (qualifying cfg.whitelist entries) with
    | some e =>
      simp only [wp_throw]
      exact .listErr e hdyn (.inr ⟨absDir, entries, hdir, hwl⟩) rfl rfl rfl rfl
    | none =>
      simp only
      change wp (loadPluginFiles cfg env (callbacks cfg env k) old (listedFiles cfg absDir entries)) _ _ _
      by_cases hne : listedFiles cfg absDir entries = []
      · unfold loadPluginFiles
        rw [if_pos hne]
        simp only [wp_mpure]
        exact .empty absDir entries hdyn hdir hwl hne (by simp) rfl rfl rfl
      · refine wp_mono (loadFiles_wp hne hgood) ?_ ?_
        · rintro d s' ⟨s0, s1, s, hcr, hdone, hgd, hd, rfl⟩
          exact .dynOk absDir entries hdyn hdir hwl hne s0 s1 s d hcr hdone hgd hd (by simp) rfl rfl rfl
        · rintro f s' (⟨rfl, h1, h2, rfl⟩ | ⟨s0, sb, f0, hcr, hfail, hbody, rfl, rfl⟩ | ⟨s0, s1, s, cbs, n, o, rest, hcr, hdone, hsplit, hbad, hgd, rfl, rfl⟩)
          · exact .escaped h1 h2 rfl rfl rfl rfl
          · exact .dynErr absDir entries hdyn hdir hwl hne s0 sb f0 hcr hfail hbody rfl rfl rfl rfl
          · exact .dynCb absDir entries hdyn hdir hwl hne s0 s1 s hcr hdone cbs n o rest hsplit hbad hgd rfl rfl rfl rfl

/-- Every call of the API goes one of these ways. -/
theorem plan_view {cfg : Config} {env : Env} {k : Kind} {old : Option Manager} {n0 : Nat} (hcfg : cfg.OK)
    (hgood : ∀ om, old = some om → SoundManager n0 om) :
    View cfg env k old n0 (plan cfg env k old n0) := by
  unfold plan
  cases k with
  | load =>
    simp only
    unfold apiLoad
    cases hst : cfg.static with
    | some sps =>
      simp only
      refine plan_of_wp (static_wp (hcfg sps hst)) ?_ ?_ ?_
      · rintro d s' ⟨sel, s0, s1, s, hsel, hcr, hdone, hgd, hd, rfl⟩
        exact .staticOk sps sel hst rfl hsel s0 s1 s d hcr hdone hgd hd rfl rfl rfl rfl
      · rintro e s' (⟨h, _⟩ | ⟨e', h, hsel, ha, hn, ho⟩ | ⟨sel, s0, sb, f0, hsel, hcr, hfail, hbody, h, rfl⟩ | ⟨sel, s0, s1, s, cbs, n, o, rest, hsel, hcr, hdone, hsplit, hbad, hgd, h, rfl⟩)
        · cases h
        · cases h; exact .staticMissing sps e hst rfl hsel ha rfl hn ho
        · cases h; exact .staticErr sps sel hst rfl hsel s0 sb f0 hcr hfail hbody rfl rfl rfl rfl
        · cases h; exact .staticCb sps sel hst rfl hsel s0 s1 s hcr hdone cbs n o rest hsplit hbad hgd rfl rfl rfl rfl
      · rintro p s' (⟨h, h1, h2, rfl⟩ | ⟨e', h, _⟩ | ⟨sel, s0, sb, f0, hsel, hcr, hfail, hbody, h, rfl⟩ | ⟨sel, s0, s1, s, cbs, n, o, rest, hsel, hcr, hdone, hsplit, hbad, hgd, h, rfl⟩)
        · cases h; exact .escaped h1 h2 rfl rfl rfl rfl
        all_goals cases h
    | none =>
      simp only
      refine plan_of_wp (impl_wp hgood (.inl hst)) ?_ ?_ ?_
      · intro d s h; simpa [countActs] using h
      · intro e s h; exact h
      · intro p s h; exact h
  | reload extra =>
    simp only
    have : wp (apiReload cfg env extra old)
        (fun d s' => View cfg env (.reload extra) old n0 ⟨s'.acts, .ok d, s'.next, s'.pm⟩)
        (fun f s' => View cfg env (.reload extra) old n0 ⟨s'.acts, match f with | .inl e => .err e | .inr p => .panic p, s'.next, s'.pm⟩)
        ⟨n0, noManager, []⟩ := by
      unfold apiReload
      simp only [wp_bind]
      refine wp_mono (impl_wp hgood (.inr (by simp))) ?_ (fun _ _ h => h)
      intro d s h
      simpa [countActs] using h
    refine plan_of_wp this (fun d s h => h) (fun e s h => h) (fun p s h => h)

end Hotswap
