import Verif.Model.PanicNil
import Verif.Proofs.Views

/-! A call in which a plugin panics with nil, compared with the same call in which it panics with another value. -/

namespace Hotswap

variable [GoRuntime]

open M

/-- The failure is a panic of the plugin's code. -/
def FromPlugin : Fail → Prop
  | .inr .user => True
  | .inl (.panicked _ .user) => True
  | _ => False

/-- How a computation fails. -/
def failedAs (f : Fail) (s : LoadSt) : Exit Unit × LoadSt :=
  match f with
  | .inl e => (.err e, s)
  | .inr p => (.panic p, s)

theorem cleanupNil_cases (it : Iter) (x : M Unit) (s : LoadSt) :
    (withCleanupNil it x s = withCleanup it x s ∧ ∀ n, (withCleanup it x s).1 ≠ .err (.panicked n .user)) ∨
    ∃ f sb n, FromPlugin f ∧ errOf f = .panicked n .user ∧ x s = failedAs f sb ∧
      withCleanup it x s = (.err (.panicked n .user), { sb with acts := sb.acts ++ cleanupActs it sb.pm }) ∧ withCleanupNil it x s = (.ok (), sb) := by
  unfold withCleanup withCleanupNil invokeEveryOnFree
  cases hx : x s with
  | mk e s' =>
    cases e with
    | ok a => exact .inl ⟨rfl, by intro n h; cases h⟩
    | err e =>
      by_cases hp : ∃ n, e = .panicked n .user
      · obtain ⟨n, rfl⟩ := hp
        exact .inr ⟨.inl (.panicked n .user), s', n, trivial, rfl, rfl, rfl, rfl⟩
      · refine .inl ⟨?_, ?_⟩
        · cases e with
          | panicked n q =>
            cases q with
            | user => exact absurd ⟨n, rfl⟩ hp
            | _ => rfl
          | _ => rfl
        · intro n h
          injection h with h
          exact hp ⟨n, h⟩
    | panic p =>
      by_cases hp : p = .user
      · subst hp
        exact .inr ⟨.inr .user, s', none, trivial, rfl, rfl, rfl, rfl⟩
      · refine .inl ⟨?_, ?_⟩
        · cases p with
          | user => exact absurd rfl hp
          | _ => rfl
        · intro n h
          injection h with h
          injection h with _ h
          exact hp h

/-- pluginManagerSwapper.go:141-165: what follows `loadPlugins`. -/
def afterLoad (env : Env) (cbs : List (Nat × Outcome)) (old : Option Manager) (files : List Str) : M Details := do
  invokeReloadCallbacks env.it old cbs
  let s ← M.get
  match buildDetails s.pm files .empty with
  | none => M.panic .nilDeref
  | some d => do
    publishNew old
    M.pure d

theorem afterLoad_wp (env : Env) (cbs : List (Nat × Outcome)) (old : Option Manager) (files : List Str) {s0 : LoadSt} :
    wp (afterLoad env cbs old files)
      (fun d s => (∀ c ∈ cbs, c.2 = .ok) ∧ buildDetails s0.pm files .empty = some d ∧
        s = { s0 with acts := s0.acts ++ cbActs s0.pm.mid (old.map (·.mid)) cbs ++ (spawnActs old ++ [.publish s0.pm]) })
      (fun f s => (f = .inl .callback ∧ ∃ done n o rest, cbs = done ++ (n, o) :: rest ∧ o ≠ .ok ∧ (∀ c ∈ done, c.2 = .ok) ∧
          s = { s0 with acts := s0.acts ++ cbActs s0.pm.mid (old.map (·.mid)) (done ++ [(n, o)]) ++ cleanupActs env.it s0.pm }) ∨
        (f = .inr .nilDeref ∧ (∀ c ∈ cbs, c.2 = .ok) ∧ buildDetails s0.pm files .empty = none ∧
          s = { s0 with acts := s0.acts ++ cbActs s0.pm.mid (old.map (·.mid)) cbs })) s0 := by
  unfold afterLoad
  simp only [wp_bind]
  refine wp_mono (callbacks_wp env.it old cbs) ?_ ?_
  · rintro _ s ⟨rfl, hok⟩
    simp only [wp_get]
    cases hd : buildDetails s0.pm files .empty with
    | none => exact .inr ⟨rfl, hok, rfl, rfl⟩
    | some d =>
      simp only [wp_bind]
      unfold publishNew
      cases old with
      | none => simp only [wp_bind, wp_mpure, wp_get, wp_emit]; exact ⟨hok, trivial, by simp [spawnActs]⟩
      | some om => simp only [wp_bind, wp_mpure, wp_get, wp_emit]; exact ⟨hok, trivial, by simp [spawnActs]⟩
  · rintro f s ⟨rfl, done, n, o, rest, h1, h2, h3, rfl⟩
    exact .inl ⟨rfl, done, n, o, rest, h1, h2, h3, rfl⟩

/-- How a call goes on after a `panic(nil)` in a load that had come to the state `sb`. -/
inductive AfterNil (cbs : List (Nat × Outcome)) (it : Iter) (k : Kind) (old : Option Manager) (det : Option Details) (sb : LoadSt) (q : Plan) : Prop
  | callback (done : List (Nat × Outcome)) (n : Nat) (o : Outcome) (rest : List (Nat × Outcome)) (split : cbs = done ++ (n, o) :: rest) (bad : o ≠ .ok) (good : ∀ c ∈ done, c.2 = .ok)
      (acts : q.acts = sb.acts ++ cbActs sb.pm.mid (old.map (·.mid)) (done ++ [(n, o)]) ++ cleanupActs it sb.pm) (res : q.res = .err .callback)
  | nilDeref (good : ∀ c ∈ cbs, c.2 = .ok) (no : det = none) (acts : q.acts = sb.acts ++ cbActs sb.pm.mid (old.map (·.mid)) cbs) (res : q.res = .panic .nilDeref)
  | published (d : Details) (good : ∀ c ∈ cbs, c.2 = .ok) (yes : det = some d)
      (acts : q.acts = sb.acts ++ cbActs sb.pm.mid (old.map (·.mid)) cbs ++ (spawnActs old ++ (.publish sb.pm :: countActs k))) (res : q.res = .ok d)

/-- A call with the plan `p`, and `q` if a panic of a plugin is a `panic(nil)`. -/
inductive NilView (cfg : Config) (env : Env) (k : Kind) (old : Option Manager) (n0 : Nat) (p q : Plan) : Prop
  | same (eq : q = p) (no : ∀ n, p.res ≠ .err (.panicked n .user))
  | dyn (absDir : Str) (entries : List DirEntry) (isDyn : cfg.static = none ∨ k ≠ .load) (dir : env.dir = some (absDir, entries))
      (s0 sb : LoadSt) (f : Fail) (n : Option Str) (cr : Created cfg env n0 s0)
      (failed : LoadFailed old n0 env.it env.fs (listedFiles cfg absDir entries) env.data s0 f sb) (body : BodyLog old n0 sb)
      (plug : FromPlugin f) (what : errOf f = .panicked n .user) (res : p.res = .err (.panicked n .user)) (built : q.built = sb.pm) (next : q.next = sb.next)
      (after : AfterNil (callbacks cfg env k) env.it k old (buildDetails sb.pm (listedFiles cfg absDir entries) .empty) sb q)
  | static (sps sel : GoMap StaticPlugin) (st : cfg.static = some sps) (kl : k = .load) (hsel : staticSelection cfg sps = .ok sel)
      (s0 sb : LoadSt) (f : Fail) (n : Option Str) (d : Details) (cr : Created cfg env n0 s0)
      (failed : StaticFailed n0 env.it sel env.data s0 f sb) (body : BodyLog none n0 sb)
      (plug : FromPlugin f) (what : errOf f = .panicked n .user) (res : p.res = .err (.panicked n .user)) (built : q.built = sb.pm) (next : q.next = sb.next)
      (after : AfterNil (callbacks cfg env k) env.it k none (some d) sb q)

/-- A file whose plugin is not found makes the report impossible. -/
theorem buildDetails_none {pm : Manager} {files : List Str} {f : Str} (hf : f ∈ files) (hno : pm.findPlugin (pluginName f) = none) (d0 : Details := .empty) :
    buildDetails pm files d0 = none := by
  induction files generalizing d0 with
  | nil => cases hf
  | cons g r ih =>
    unfold buildDetails
    rcases List.mem_cons.mp hf with rfl | hf
    · rw [hno]
    · cases pm.findPlugin (pluginName g) with
      | none => rfl
      | some p => exact ih hf _

/-- The result of a computation as a plan. -/
def planOf (r : Exit Details × LoadSt) : Plan := { acts := r.2.acts, res := r.1, next := r.2.next, built := r.2.pm }

omit [GoRuntime] in
theorem bind_apply {α β : Type} (x : M α) (f : α → M β) (s : LoadSt) : (x >>= f) s = match x s with
    | (.ok a, s') => f a s'
    | (.err e, s') => (.err e, s')
    | (.panic p, s') => (.panic p, s') := rfl

theorem files_nil {cfg : Config} {env : Env} {k : Kind} {old : Option Manager} {n0 : Nat} {files : List Str}
    (hne : files ≠ []) (hgood : ∀ om, old = some om → SoundManager n0 om) :
    (loadPluginFilesNil cfg env (callbacks cfg env k) old files ⟨n0, noManager, []⟩ = loadPluginFiles cfg env (callbacks cfg env k) old files ⟨n0, noManager, []⟩ ∧
      ∀ n, (loadPluginFiles cfg env (callbacks cfg env k) old files ⟨n0, noManager, []⟩).1 ≠ .err (.panicked n .user)) ∨
    ∃ s0 sb f n, Created cfg env n0 s0 ∧ LoadFailed old n0 env.it env.fs files env.data s0 f sb ∧ BodyLog old n0 sb ∧ FromPlugin f ∧ errOf f = .panicked n .user ∧
      (loadPluginFiles cfg env (callbacks cfg env k) old files ⟨n0, noManager, []⟩).1 = .err (.panicked n .user) ∧
      loadPluginFilesNil cfg env (callbacks cfg env k) old files ⟨n0, noManager, []⟩ = afterLoad env (callbacks cfg env k) old files sb := by
  have e1 : loadPluginFiles cfg env (callbacks cfg env k) old files = (do
      createManager cfg env
      loadPlugins env.it env.fs files old env.data
      afterLoad env (callbacks cfg env k) old files) := by
    unfold loadPluginFiles; rw [if_neg hne]; rfl
  have e2 : loadPluginFilesNil cfg env (callbacks cfg env k) old files = (do
      createManager cfg env
      loadPluginsNil env.it env.fs files old env.data
      afterLoad env (callbacks cfg env k) old files) := by
    unfold loadPluginFilesNil; rw [if_neg hne]; rfl
  rw [e1, e2, bind_apply, bind_apply]
  have hcw := createManager_wp (cfg := cfg) (env := env) (n0 := n0) (pm := noManager)
  cases hc : createManager cfg env ⟨n0, noManager, []⟩ with
  | mk e s0 =>
    have hcr := wp_run hcw hc
    cases e with
    | err e => exact .inl ⟨rfl, by intro n h; simp only at hcr; cases hcr.1⟩
    | panic p => exact .inl ⟨rfl, by intro n h; cases h⟩
    | ok a =>
      simp only at hcr ⊢
      rw [bind_apply, bind_apply]
      rcases cleanupNil_cases env.it (loadPluginsBody env.it env.fs files old env.data) s0 with ⟨heq, hno⟩ | ⟨f, sb, n, hp, hn, hx, h1, h2⟩
      · refine .inl ?_
        have heq' : loadPluginsNil env.it env.fs files old env.data s0 = loadPlugins env.it env.fs files old env.data s0 := heq
        have hno' : ∀ n, (loadPlugins env.it env.fs files old env.data s0).1 ≠ .err (.panicked n .user) := hno
        rw [heq']
        refine ⟨rfl, ?_⟩
        intro n
        cases hl : loadPlugins env.it env.fs files old env.data s0 with
        | mk e s' =>
          cases e with
          | err e => intro h; injection h with h; exact hno' n (by rw [hl, h])
          | panic p => intro h; cases h
          | ok a =>
            simp only
            cases ha : afterLoad env (callbacks cfg env k) old files s' with
            | mk e s'' =>
              have := wp_run (afterLoad_wp env (callbacks cfg env k) old files) ha
              intro h
              change e = _ at h
              subst h
              simp only at this
              rcases this with ⟨h, _⟩ | ⟨h, _⟩ <;> cases h
      · refine .inr ?_
        have hw := loadPluginsBody_wp env.it env.fs files env.data hgood hcr.toFresh
        have hf : LoadFailed old n0 env.it env.fs files env.data s0 f sb ∧ BodyLog old n0 sb := by
          have := wp_run hw hx
          cases f <;> exact this
        have h1' : loadPlugins env.it env.fs files old env.data s0 = _ := h1
        have h2' : loadPluginsNil env.it env.fs files old env.data s0 = _ := h2
        rw [h1', h2']
        exact ⟨s0, sb, f, n, hcr, hf.1, hf.2, hp, hn, rfl, rfl⟩

/-- pluginManagerSwapper.go and staticPlugin.go:146-155: what follows `loadStaticPlugins`. -/
def afterStatic (env : Env) (cbs : List (Nat × Outcome)) (d : Details) : M Details := do
  invokeReloadCallbacks env.it none cbs
  publishNew none
  M.pure d

theorem afterStatic_wp (env : Env) (cbs : List (Nat × Outcome)) (d : Details) {s0 : LoadSt} :
    wp (afterStatic env cbs d)
      (fun d' s => (∀ c ∈ cbs, c.2 = .ok) ∧ d' = d ∧ s = { s0 with acts := s0.acts ++ cbActs s0.pm.mid none cbs ++ [.publish s0.pm] })
      (fun f s => f = .inl .callback ∧ ∃ done n o rest, cbs = done ++ (n, o) :: rest ∧ o ≠ .ok ∧ (∀ c ∈ done, c.2 = .ok) ∧
          s = { s0 with acts := s0.acts ++ cbActs s0.pm.mid none (done ++ [(n, o)]) ++ cleanupActs env.it s0.pm }) s0 := by
  unfold afterStatic
  simp only [wp_bind]
  refine wp_mono (callbacks_wp env.it none cbs) ?_ ?_
  · rintro _ s ⟨rfl, hok⟩
    unfold publishNew
    simp only [wp_bind, wp_mpure, wp_get, wp_emit]
    exact ⟨hok, trivial, rfl⟩
  · rintro f s ⟨rfl, done, n, o, rest, h1, h2, h3, rfl⟩
    exact ⟨rfl, done, n, o, rest, h1, h2, h3, rfl⟩

/-- The report of a static load. -/
def staticDetails (sel : GoMap StaticPlugin) : Details := ⟨sel.entries.map (fun e => (e.1, "ok".toList)), by
  simpa [List.map_map, Function.comp_def] using sel.nodup⟩

theorem static_nil {cfg : Config} {env : Env} {n0 : Nat} {sps : GoMap StaticPlugin} (hok : StaticOK sps) :
    (loadStaticPluginsNil cfg env (callbacks cfg env .load) sps ⟨n0, noManager, []⟩ = loadStaticPlugins cfg env (callbacks cfg env .load) sps ⟨n0, noManager, []⟩ ∧
      ∀ n, (loadStaticPlugins cfg env (callbacks cfg env .load) sps ⟨n0, noManager, []⟩).1 ≠ .err (.panicked n .user)) ∨
    ∃ sel s0 sb f n, staticSelection cfg sps = .ok sel ∧ Created cfg env n0 s0 ∧ StaticFailed n0 env.it sel env.data s0 f sb ∧ BodyLog none n0 sb ∧ FromPlugin f ∧
      errOf f = .panicked n .user ∧ (loadStaticPlugins cfg env (callbacks cfg env .load) sps ⟨n0, noManager, []⟩).1 = .err (.panicked n .user) ∧
      loadStaticPluginsNil cfg env (callbacks cfg env .load) sps ⟨n0, noManager, []⟩ = afterStatic env (callbacks cfg env .load) (staticDetails sel) sb := by
  have e1 : loadStaticPlugins cfg env (callbacks cfg env .load) sps = (do
      createManager cfg env
      match staticSelection cfg sps with
      | .error e => M.throw e
      | .ok sel => do
        loadStatic env.it sel env.data
        afterStatic env (callbacks cfg env .load) (staticDetails sel)) := rfl
  have e2 : loadStaticPluginsNil cfg env (callbacks cfg env .load) sps = (do
      createManager cfg env
      match staticSelection cfg sps with
      | .error e => M.throw e
      | .ok sel => do
        loadStaticNil env.it sel env.data
        afterStatic env (callbacks cfg env .load) (staticDetails sel)) := rfl
  rw [e1, e2, bind_apply, bind_apply]
  have hcw := createManager_wp (cfg := cfg) (env := env) (n0 := n0) (pm := noManager)
  cases hc : createManager cfg env ⟨n0, noManager, []⟩ with
  | mk e s0 =>
    have hcr := wp_run hcw hc
    cases e with
    | err e => exact .inl ⟨rfl, by intro n h; simp only at hcr; cases hcr.1⟩
    | panic p => exact .inl ⟨rfl, by intro n h; cases h⟩
    | ok a =>
      simp only at hcr ⊢
      cases hsel : staticSelection cfg sps with
      | error e =>
        refine .inl ⟨rfl, ?_⟩
        intro n h
        simp only at h
        injection h with h
        subst h
        unfold staticSelection at hsel
        split at hsel
        · cases hsel
        · have := selectStatic_err hsel
          simp at this
      | ok sel =>
        simp only
        rw [bind_apply, bind_apply]
        rcases cleanupNil_cases env.it (loadStaticBody env.it sel env.data) s0 with ⟨heq, hno⟩ | ⟨f, sb, n, hp, hn, hx, h1, h2⟩
        · refine .inl ?_
          have heq' : loadStaticNil env.it sel env.data s0 = loadStatic env.it sel env.data s0 := heq
          have hno' : ∀ n, (loadStatic env.it sel env.data s0).1 ≠ .err (.panicked n .user) := hno
          rw [heq']
          refine ⟨rfl, ?_⟩
          intro n
          cases hl : loadStatic env.it sel env.data s0 with
          | mk e s' =>
            cases e with
            | err e => intro h; injection h with h; exact hno' n (by rw [hl, h])
            | panic p => intro h; cases h
            | ok a =>
              simp only
              cases ha : afterStatic env (callbacks cfg env .load) (staticDetails sel) s' with
              | mk e s'' =>
                have := wp_run (afterStatic_wp env (callbacks cfg env .load) (staticDetails sel)) ha
                intro h
                change e = _ at h
                subst h
                simp only at this
                cases this.1
        · refine .inr ?_
          have hw := loadStaticBody_wp env.it sel env.data (hok.select hsel) hcr.toFresh
          have hf : StaticFailed n0 env.it sel env.data s0 f sb ∧ BodyLog none n0 sb := by
            have := wp_run hw hx
            cases f <;> exact this
          have h1' : loadStatic env.it sel env.data s0 = _ := h1
          have h2' : loadStaticNil env.it sel env.data s0 = _ := h2
          rw [h1', h2']
          exact ⟨sel, s0, sb, f, n, rfl, hcr, hf.1, hf.2, hp, hn, rfl, rfl⟩

/-- What follows a `panic(nil)` in a load. -/
theorem AfterNil.of_load {env : Env} {cbs : List (Nat × Outcome)} {old : Option Manager} {files : List Str} {sb : LoadSt} {k : Kind} {r : Exit Details × LoadSt}
    (hr : afterLoad env cbs old files sb = r) {q : Plan} (hq : q.res = r.1) (ha : q.acts = r.2.acts ++ (match r.1 with | .ok _ => countActs k | _ => [])) :
    AfterNil cbs env.it k old (buildDetails sb.pm files .empty) sb q ∧ r.2.pm = sb.pm ∧ r.2.next = sb.next := by
  obtain ⟨e, s⟩ := r
  have := wp_run (afterLoad_wp env cbs old files) hr
  cases e with
  | ok d =>
    obtain ⟨h1, h2, rfl⟩ := this
    exact ⟨.published d h1 h2 (by rw [ha]; simp) hq, rfl, rfl⟩
  | err e =>
    rcases this with ⟨h, done, n, o, rest, h1, h2, h3, rfl⟩ | ⟨h, _⟩
    · cases h
      exact ⟨.callback done n o rest h1 h2 h3 (by rw [ha]; simp) hq, rfl, rfl⟩
    · cases h
  | panic p =>
    rcases this with ⟨h, _⟩ | ⟨h, h1, h2, rfl⟩
    · cases h
    · cases h
      exact ⟨.nilDeref h1 h2 (by rw [ha]; simp) hq, rfl, rfl⟩

theorem impl_nil {cfg : Config} {env : Env} {k : Kind} {old : Option Manager} {n0 : Nat} (hgood : ∀ om, old = some om → SoundManager n0 om) :
    (loadPluginsImplNil cfg env (callbacks cfg env k) old ⟨n0, noManager, []⟩ = loadPluginsImpl cfg env (callbacks cfg env k) old ⟨n0, noManager, []⟩ ∧
      ∀ n, (loadPluginsImpl cfg env (callbacks cfg env k) old ⟨n0, noManager, []⟩).1 ≠ .err (.panicked n .user)) ∨
    ∃ absDir entries, env.dir = some (absDir, entries) ∧ ∃ s0 sb f n, Created cfg env n0 s0 ∧
      LoadFailed old n0 env.it env.fs (listedFiles cfg absDir entries) env.data s0 f sb ∧ BodyLog old n0 sb ∧ FromPlugin f ∧ errOf f = .panicked n .user ∧
      (loadPluginsImpl cfg env (callbacks cfg env k) old ⟨n0, noManager, []⟩).1 = .err (.panicked n .user) ∧
      loadPluginsImplNil cfg env (callbacks cfg env k) old ⟨n0, noManager, []⟩ = afterLoad env (callbacks cfg env k) old (listedFiles cfg absDir entries) sb := by
  unfold loadPluginsImpl loadPluginsImplNil
  cases hdir : env.dir with
  | none => exact .inl ⟨rfl, by intro n h; cases h⟩
  | some de =>
    obtain ⟨absDir, entries⟩ := de
    simp only
    cases hwl : whitelistError cfg.whitelist (qualifying cfg.whitelist entries) with
    | some e =>
      refine .inl ⟨rfl, ?_⟩
      intro n h
      injection h with h
      obtain ⟨l, hl⟩ := whitelistError_eq hwl
      rw [h] at hl; cases hl
    | none =>
      simp only
      by_cases hne : listedFiles cfg absDir entries = []
      · refine .inl ?_
        change _ ∧ ∀ n, (loadPluginFiles cfg env (callbacks cfg env k) old (listedFiles cfg absDir entries) _).1 ≠ _
        change loadPluginFilesNil cfg env (callbacks cfg env k) old (listedFiles cfg absDir entries) _ = loadPluginFiles cfg env (callbacks cfg env k) old (listedFiles cfg absDir entries) _ ∧ _
        unfold loadPluginFiles loadPluginFilesNil
        rw [if_pos hne, if_pos hne]
        exact ⟨rfl, by intro n h; cases h⟩
      · rcases files_nil (cfg := cfg) (env := env) (k := k) hne hgood with h | ⟨s0, sb, f, n, h⟩
        · exact .inl h
        · exact .inr ⟨absDir, entries, rfl, s0, sb, f, n, h⟩

/-- All ways a call can go with a `panic(nil)`. -/
theorem plan_nilView {cfg : Config} {env : Env} {k : Kind} {old : Option Manager} {n0 : Nat} (hcfg : cfg.OK)
    (hgood : ∀ om, old = some om → SoundManager n0 om) :
    NilView cfg env k old n0 (plan cfg env k old n0) (planNil cfg env k old n0) := by
  cases k with
  | load =>
    unfold plan planNil
    simp only
    unfold apiLoad apiLoadNil
    cases hst : cfg.static with
    | some sps =>
      simp only
      rcases static_nil (cfg := cfg) (env := env) (n0 := n0) (hcfg sps hst) with ⟨heq, hno⟩ | ⟨sel, s0, sb, f, n, hsel, hcr, hf, hb, hp, hn, hx, hy⟩
      · exact .same (by rw [heq]) hno
      · cases hr : afterStatic env (callbacks cfg env .load) (staticDetails sel) sb with
        | mk e s =>
          have hw := wp_run (afterStatic_wp env (callbacks cfg env .load) (staticDetails sel)) hr
          rw [hy, hr]
          cases e with
          | ok d =>
            obtain ⟨h1, h2, rfl⟩ := hw
            exact .static sps sel hst rfl hsel s0 sb f n (staticDetails sel) hcr hf hb hp hn hx rfl rfl (.published d h1 (by rw [h2]) (by simp [spawnActs, countActs]) rfl)
          | err e =>
            obtain ⟨h, done, n', o, rest, h1, h2, h3, rfl⟩ := hw
            cases h
            exact .static sps sel hst rfl hsel s0 sb f n (staticDetails sel) hcr hf hb hp hn hx rfl rfl (.callback done n' o rest h1 h2 h3 rfl rfl)
          | panic p => cases hw.1
    | none =>
      simp only
      rcases impl_nil (cfg := cfg) (env := env) (k := .load) hgood with ⟨heq, hno⟩ | ⟨absDir, entries, hdir, s0, sb, f, n, hcr, hf, hb, hp, hn, hx, hy⟩
      · exact .same (by rw [heq]) hno
      · obtain ⟨h1, h2, h3⟩ := AfterNil.of_load (k := .load) (q := planOf (afterLoad env (callbacks cfg env .load) old (listedFiles cfg absDir entries) sb)) rfl rfl (by simp only [planOf, countActs]; split <;> simp)
        rw [hy]
        exact .dyn absDir entries (.inl hst) hdir s0 sb f n hcr hf hb hp hn hx h2 h3 h1
  | reload extra =>
    unfold plan planNil
    simp only
    unfold apiReload apiReloadNil
    rw [bind_apply, bind_apply]
    rcases impl_nil (cfg := cfg) (env := env) (k := .reload extra) hgood with ⟨heq, hno⟩ | ⟨absDir, entries, hdir, s0, sb, f, n, hcr, hf, hb, hp, hn, hx, hy⟩
    · refine .same (by rw [heq]) ?_
      intro n
      cases hl : loadPluginsImpl cfg env (callbacks cfg env (.reload extra)) old ⟨n0, noManager, []⟩ with
      | mk e s' =>
        rw [hl] at hno
        cases e with
        | ok d => intro h; cases h
        | err e => exact hno n
        | panic p => intro h; cases h
    · rw [hy]
      cases hl : loadPluginsImpl cfg env (callbacks cfg env (.reload extra)) old ⟨n0, noManager, []⟩ with
      | mk e s' =>
        rw [hl] at hx
        change e = _ at hx
        subst hx
        cases hr : afterLoad env (callbacks cfg env (.reload extra)) old (listedFiles cfg absDir entries) sb with
        | mk e s =>
          cases e with
          | ok d =>
            obtain ⟨h1, h2, h3⟩ := AfterNil.of_load (k := .reload extra) (q := ⟨s.acts ++ [.count], .ok d, s.next, s.pm⟩) hr rfl rfl
            exact .dyn absDir entries (.inr (by simp)) hdir s0 sb f n hcr hf hb hp hn rfl h2 h3 h1
          | err e =>
            obtain ⟨h1, h2, h3⟩ := AfterNil.of_load (k := .reload extra) (q := ⟨s.acts, .err e, s.next, s.pm⟩) hr rfl (by simp)
            exact .dyn absDir entries (.inr (by simp)) hdir s0 sb f n hcr hf hb hp hn rfl h2 h3 h1
          | panic p =>
            obtain ⟨h1, h2, h3⟩ := AfterNil.of_load (k := .reload extra) (q := ⟨s.acts, .panic p, s.next, s.pm⟩) hr rfl (by simp)
            exact .dyn absDir entries (.inr (by simp)) hdir s0 sb f n hcr hf hb hp hn rfl h2 h3 h1

end Hotswap
