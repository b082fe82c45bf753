import Verif.Proofs.LogBody

/-! The log of a whole call. -/

namespace Hotswap

variable [GoRuntime]

open LM (lift write)

/-- If the error may be that of a logger that has panicked, everything taken has been released. -/
def CutOK (it : Iter) {α : Type} (r : Exit α × LogSt) : Prop := ∀ l : Line, r.1 = .err l.err → ∃ cs, Clean it cs ∧ r.2.st = (invokeEveryOnFree it cs).2

/-- The actions of the end of a call. -/
def Act.isLate (a : Act) : Prop := 6 ≤ a.stage

theorem Told.step {s s' : LogSt} (h : Told s) (hl : s'.lines = s.lines) (hm : s'.st.pm.pluginMap = s.st.pm.pluginMap) {la : List Act}
    (ha : s'.st.acts = s.st.acts ++ la) (hla : ∀ a ∈ la, 6 ≤ a.stage) : Told s' := by
  intro nm hnm
  rw [hm] at hnm
  have e := announced_none (nm := nm) (l := la) (fun a h' => by
    have := hla a h'
    cases a <;> simp [Act.stage] at this <;> rfl) (0 + s.st.acts.length)
  rw [hl, ha, announced_append, h nm hnm, e, List.append_nil]

theorem Told.lift {α : Type} {x : M α} {P : Act → Prop} (hx : Adds P x) (hP : ∀ a, P a → 6 ≤ a.stage) {s : LogSt} (h : Told s) : Told (LM.lift x s).2 := by
  obtain ⟨h1, _, la, h3, h4⟩ := hx s.st
  exact h.step (s' := (LM.lift x s).2) rfl h1 h3 (fun a ha => hP a (h4 a ha))

theorem StatsLogged.lift {old : Option Manager} {fs : FS} {files : List Str} {α : Type} {x : M α} {P : Act → Prop} (hx : Adds P x) (hP : ∀ a, P a → 6 ≤ a.stage) {s : LogSt}
    (h : StatsLogged old fs files s) : StatsLogged old fs files (LM.lift x s).2 := by
  obtain ⟨_, _, la, h3, h4⟩ := hx s.st
  refine h.step (s' := (LM.lift x s).2) (ll := []) (by simp [LM.lift]) (by simp) h3 (fun a ha => ?_)
  have := hP a (h4 a ha)
  cases a <;> simp [Act.stage] at this <;> rfl

theorem adds_free (it : Iter) : Adds Act.isLate (invokeEveryOnFree it) := by
  intro s
  refine ⟨rfl, rfl, _, rfl, ?_⟩
  intro a ha
  obtain ⟨p, _, rfl⟩ := List.mem_map.mp ha
  simp [Act.isLate, Act.stage]

theorem adds_callbacks (it : Iter) (old : Option Manager) (l : List (Nat × Outcome)) : Adds Act.isLate (invokeReloadCallbacks it old l) := by
  induction l with
  | nil => exact Adds.pure _
  | cons c r ih =>
    obtain ⟨n, o⟩ := c
    unfold Hotswap.invokeReloadCallbacks
    refine Adds.bind Adds.get (fun s => Adds.bind (Adds.emit (by simp [Act.isLate, Act.stage])) (fun _ => ?_))
    cases o with
    | ok => exact ih
    | err => exact Adds.bind (adds_free it) (fun _ => Adds.throw _)
    | panics => exact Adds.bind (adds_free it) (fun _ => Adds.throw _)

theorem adds_publish (old : Option Manager) : Adds Act.isLate (publishNew old) := by
  unfold publishNew
  have rest : Adds Act.isLate (M.bind M.get (fun s => M.emit (.publish s.pm))) := Adds.bind Adds.get (fun s => Adds.emit (by simp [Act.isLate, Act.stage]))
  cases old with
  | none => exact Adds.bind (Adds.pure _) (fun _ => rest)
  | some om => exact Adds.bind (Adds.emit (by simp [Act.isLate, Act.stage])) (fun _ => rest)

theorem callbacks_exit (it : Iter) (old : Option Manager) (l : List (Nat × Outcome)) (s : LoadSt) :
    (invokeReloadCallbacks it old l s).1 = .ok () ∨ (invokeReloadCallbacks it old l s).1 = .err .callback := by
  have w := callbacks_wp it old l (s0 := s)
  unfold wp at w
  rcases h : invokeReloadCallbacks it old l s with ⟨e, t⟩
  rw [h] at w
  cases e with
  | ok u => exact .inl rfl
  | err e => exact .inr (by rw [Sum.inl.inj w.1])
  | panic p => cases w.1

omit [GoRuntime] in
theorem Line.err_ne_callback (l : Line) : l.err ≠ .callback := by cases l <;> simp [Line.err]

theorem clean_nothing (it : Iter) {s : LoadSt} (ha : s.acts = []) (hm : s.pm.pluginMap = .empty) (ho : s.pm.ordered = []) : Clean it s ∧ (invokeEveryOnFree it s).2 = s := by
  have hf : freeOrder it s.pm = [] := by
    unfold freeOrder
    rw [if_pos ho, hm]
    have := (GoMap.rangeKV_vals_perm it .free (GoMap.empty : GoMap Plugin))
    simpa [GoMap.vals, GoMap.empty] using this
  refine ⟨⟨⟨[], by rw [hf]; rfl, by rw [ha]; exact List.Perm.refl _, List.nodup_nil, ?_, ?_, .inl ho⟩, by simp [ha]⟩, ?_⟩
  · intro k p hp; rw [hm] at hp; cases hp
  · unfold Manager.insts; rw [hm]; simp [GoMap.vals, GoMap.empty]
  unfold invokeEveryOnFree
  rw [hf]
  simp

theorem BodyEnd.cleanup {it : Iter} {lg : Logger} {St : LogSt → Prop} {s : LogSt} (h : BodyEnd it lg St s) :
    (lg = quiet → Told ⟨(invokeEveryOnFree it s.st).2, s.lines⟩) ∧ ∃ cs, Clean it cs ∧ (invokeEveryOnFree it s.st).2 = (invokeEveryOnFree it cs).2 :=
  ⟨fun hq => (h.told hq).lift (adds_free it) (fun _ h => h), s.st, h.clean, rfl⟩

/-- What a call with a logger leaves behind. -/
structure CallEnd (it : Iter) (lg : Logger) (St : LogSt → Prop) {α : Type} (r : Exit α × LogSt) : Prop where
  cut : CutOK it r
  told : lg = quiet → Told r.2
  st : St r.2

/-- Nothing has been done, or the first line has been written. -/
def StatsOr (old : Option Manager) (fs : FS) (files : List Str) (s : LogSt) : Prop := (s.lines = [] ∧ ∀ a ∈ s.st.acts, a = .count) ∨ StatsLogged old fs files s

theorem told_nothing {s : LogSt} (hl : s.lines = []) (ha : s.st.acts = []) : Told s := told_of_none (by simp [hl]) (by simp [ha])

theorem create_end {cfg : Config} {env : Env} {n0 : Nat} (it : Iter) :
    (∃ u t, createManager cfg env (logStart n0).st = (.ok u, t) ∧ Created cfg env n0 t) ∨
    ∃ t, createManager cfg env (logStart n0).st = (.panic .user, t) ∧ t.acts = [] ∧ t.pm.pluginMap = .empty ∧ t.pm.ordered = [] := by
  have w : wp (createManager cfg env) _ _ (logStart n0).st := createManager_wp (cfg := cfg) (env := env) (n0 := n0) (pm := noManager)
  unfold wp at w
  rcases h : createManager cfg env (logStart n0).st with ⟨e, t⟩
  rw [h] at w
  cases e with
  | ok u => exact .inl ⟨u, t, rfl, w⟩
  | err e => cases w.1
  | panic p =>
    obtain ⟨h1, _, _, h4⟩ := w
    cases h1
    exact .inr ⟨t, rfl, by rw [h4], by rw [h4]; rfl, by rw [h4]; rfl⟩

theorem files_end {cfg : Config} {env : Env} {n0 : Nat} (lg : Logger) (cbs : List (Nat × Outcome)) {old : Option Manager} (files : List Str)
    (hgood : ∀ om, old = some om → SoundManager n0 om) :
    CallEnd env.it lg (StatsOr old env.fs files) (loadPluginFilesL lg cfg env cbs old files (logStart n0)) := by
  unfold loadPluginFilesL
  have start : ∀ {α : Type} (e : Exit α), CallEnd env.it lg (StatsOr old env.fs files) (e, logStart n0) := fun e =>
    ⟨fun l _ => ⟨_, (clean_nothing env.it rfl rfl rfl).1, (clean_nothing env.it rfl rfl rfl).2.symm⟩, fun _ => told_nothing rfl rfl, .inl ⟨rfl, by simp [logStart]⟩⟩
  by_cases hf : files = []
  · rw [if_pos hf]; exact start _
  rw [if_neg hf]
  change CallEnd env.it lg _ (LM.bind (LM.lift (createManager cfg env)) (fun _ => LM.bind (withCleanupL env.it (loadPluginsBodyL lg env.it env.fs files old env.data)) (fun _ => LM.lift _)) (logStart n0))
  generalize hlast : (M.bind (invokeReloadCallbacks env.it old cbs) (fun _ => M.bind M.get (fun s =>
      match buildDetails s.pm files .empty with
      | none => M.panic .nilDeref
      | some d => M.bind (publishNew old) (fun _ => M.pure d))) : M Details) = last
  change CallEnd env.it lg _ (LM.bind (LM.lift (createManager cfg env)) (fun _ => LM.bind (withCleanupL env.it (loadPluginsBodyL lg env.it env.fs files old env.data)) (fun _ => LM.lift (M.bind (invokeReloadCallbacks env.it old cbs) (fun _ => M.bind M.get (fun s =>
      match buildDetails s.pm files .empty with
      | none => M.panic .nilDeref
      | some d => M.bind (publishNew old) (fun _ => M.pure d)))))) (logStart n0))
  rw [hlast]
  have hadds : Adds Act.isLate last := by
    rw [← hlast]
    refine Adds.bind (adds_callbacks _ _ _) (fun _ => Adds.bind Adds.get (fun s => ?_))
    cases buildDetails s.pm files .empty with
    | none => exact Adds.panic _
    | some d => exact Adds.bind (adds_publish old) (fun _ => Adds.pure _)
  have hexit : ∀ t l, (last t).1 ≠ .err (Line.err l) := by
    intro t l
    rw [← hlast]
    unfold M.bind
    rcases callbacks_exit env.it old cbs t with h | h <;> rcases hc : invokeReloadCallbacks env.it old cbs t with ⟨e, t'⟩ <;> rw [hc] at h <;> simp only at h <;> subst h
    · simp only [M.get]
      cases buildDetails t'.pm files .empty with
      | none => simp [M.panic]
      | some d => cases old <;> simp [M.pure, publishNew] <;> intro h <;> cases h
    · intro h
      have h' : (Exit.err Err.callback : Exit Details) = .err (Line.err l) := h
      injection h' with h'
      exact Line.err_ne_callback l h'.symm
  rcases create_end (cfg := cfg) (env := env) (n0 := n0) env.it with ⟨u, t, hc, hcr⟩ | ⟨t, hc, h1, h2, h3⟩
  · generalize hr : (fun _ => LM.bind (withCleanupL env.it (loadPluginsBodyL lg env.it env.fs files old env.data)) (fun _ => LM.lift last) : Unit → LM Details) = rest
    unfold LM.bind LM.lift
    rw [hc]
    subst hr
    simp only
    obtain ⟨hend, hok⟩ := body_end env.it lg env.fs files env.data (s := ⟨t, (logStart n0).lines⟩) hgood hcr.toFresh rfl
    unfold LM.bind withCleanupL
    rcases hb : loadPluginsBodyL lg env.it env.fs files old env.data ⟨t, (logStart n0).lines⟩ with ⟨e, s⟩
    rw [hb] at hend hok
    have failed : ∀ {α : Type} (e : Exit α), CallEnd env.it lg (StatsOr old env.fs files) (e, (⟨(invokeEveryOnFree env.it s.st).2, s.lines⟩ : LogSt)) := by
      intro α e
      obtain ⟨ht, hcs⟩ := hend.cleanup
      refine ⟨fun _ _ => hcs, ht, ?_⟩
      rcases hend.st with ⟨h1, h2, h3, h4⟩ | h
      · refine .inl ⟨h1, ?_⟩
        rw [(clean_nothing env.it h2 h3 h4).2, h2]; simp
      · exact .inr (h.lift (adds_free env.it) (fun _ h => h))
    cases e with
    | err e => exact failed _
    | panic p => exact failed _
    | ok u =>
      refine ⟨fun l hl => absurd hl (hexit s.st l), fun hq => ?_, .inr ?_⟩
      · exact Told.lift hadds (fun _ h => h) (hend.told hq)
      · exact StatsLogged.lift hadds (fun _ h => h) (hok u rfl)
  · unfold LM.bind LM.lift
    rw [hc]
    exact ⟨fun l hl => (by cases hl), fun _ => told_nothing rfl h1, .inl ⟨rfl, by simp [h1]⟩⟩

/-- What a call that is not static leaves behind. -/
def DynLog (cfg : Config) (env : Env) (old : Option Manager) (s : LogSt) : Prop :=
  (s.lines = [] ∧ ∀ a ∈ s.st.acts, a = .count) ∨
  ∃ absDir entries, env.dir = some (absDir, entries) ∧ StatsLogged old env.fs (listedFiles cfg absDir entries) s

theorem impl_end {cfg : Config} {env : Env} {n0 : Nat} (lg : Logger) (cbs : List (Nat × Outcome)) {old : Option Manager}
    (hgood : ∀ om, old = some om → SoundManager n0 om) :
    CallEnd env.it lg (DynLog cfg env old) (loadPluginsImplL lg cfg env cbs old (logStart n0)) := by
  have start : ∀ {α : Type} (e : Exit α), CallEnd env.it lg (DynLog cfg env old) (e, logStart n0) := fun e =>
    ⟨fun l _ => ⟨_, (clean_nothing env.it rfl rfl rfl).1, (clean_nothing env.it rfl rfl rfl).2.symm⟩, fun _ => told_nothing rfl rfl, .inl ⟨rfl, by simp [logStart]⟩⟩
  unfold loadPluginsImplL
  cases hd : env.dir with
  | none => exact start _
  | some x =>
    obtain ⟨absDir, entries⟩ := x
    simp only
    cases whitelistError cfg.whitelist (qualifying cfg.whitelist entries) with
    | some e => exact start _
    | none =>
      obtain ⟨h1, h2, h3⟩ := files_end (cfg := cfg) (env := env) (n0 := n0) lg cbs ((qualifying cfg.whitelist entries).map (joinPath absDir)) hgood
      refine ⟨h1, h2, ?_⟩
      rcases h3 with h | h
      · exact .inl h
      · exact .inr ⟨absDir, entries, hd, h⟩

theorem reload_end {cfg : Config} {env : Env} {n0 : Nat} (lg : Logger) (extra : Option Outcome) {old : Option Manager}
    (hgood : ∀ om, old = some om → SoundManager n0 om) :
    CallEnd env.it lg (DynLog cfg env old) (apiReloadL lg cfg env extra old (logStart n0)) := by
  obtain ⟨h1, h2, h3⟩ := impl_end (cfg := cfg) (n0 := n0) lg (callbacks cfg env (.reload extra)) hgood
  change CallEnd env.it lg _ (LM.bind (loadPluginsImplL lg cfg env (callbacks cfg env (.reload extra)) old) (fun d => LM.lift (M.bind (M.emit .count) (fun _ => M.pure d))) (logStart n0))
  have hadds : ∀ d : Details, Adds (fun a => a = Act.count) (M.bind (M.emit .count) (fun _ => M.pure d)) := fun d => Adds.bind (Adds.emit rfl) (fun _ => Adds.pure _)
  unfold LM.bind
  rcases hx : loadPluginsImplL lg cfg env (callbacks cfg env (.reload extra)) old (logStart n0) with ⟨e, s⟩
  rw [hx] at h1 h2 h3
  cases e with
  | err e => exact ⟨fun l hl => (by cases hl; exact h1 l rfl), h2, h3⟩
  | panic p => exact ⟨fun l hl => (by cases hl), h2, h3⟩
  | ok d =>
    refine ⟨fun l hl => (by cases hl), fun hq => Told.lift (hadds d) (by rintro _ rfl; simp [Act.stage]) (h2 hq), ?_⟩
    rcases h3 with ⟨h4, h5⟩ | ⟨absDir, entries, hd, h⟩
    · refine .inl ⟨h4, ?_⟩
      obtain ⟨_, _, la, g1, g2⟩ := hadds d s.st
      intro a ha
      change a ∈ (M.bind (M.emit .count) (fun _ => M.pure d) s.st).2.acts at ha
      rw [g1] at ha
      rcases List.mem_append.mp ha with ha | ha
      · exact h5 a ha
      · exact g2 a ha
    · exact .inr ⟨absDir, entries, hd, h.lift (hadds d) (by rintro _ rfl; simp [Act.stage])⟩

/-! ### static linking -/

/-- Is it a callback, or the publication? -/
def Act.isOuter : Act → Bool
  | .callback _ _ _ | .publish _ => true
  | _ => false

/-- The line about static linking is written before the first callback, and only then. -/
def StaticLog (s : LogSt) : Prop :=
  ((∀ x ∈ s.lines, x.2.isHook = true) ∧ ∀ a ∈ s.st.acts, a.isOuter = false) ∨
  ∃ hl k a, s.lines = hl ++ [(k, .static)] ∧ (∀ x ∈ hl, x.2.isHook = true) ∧ s.st.acts[k]? = some a ∧ a.isOuter = true ∧ ∀ x ∈ s.st.acts.take k, x.stage ≤ 5

theorem early_not_outer {l : List Act} (h : ∀ a ∈ l, a.stage ≤ 5) : ∀ a ∈ l, a.isOuter = false := by
  intro a ha
  have := h a ha
  cases a <;> simp [Act.stage] at this <;> rfl

theorem free_not_outer (it : Iter) {s : LoadSt} (h : ∀ a ∈ s.acts, a.stage ≤ 5) : ∀ a ∈ (invokeEveryOnFree it s).2.acts, a.isOuter = false := by
  intro a ha
  rw [emits_free_only] at ha
  rcases List.mem_append.mp ha with ha | ha
  · exact early_not_outer h a ha
  · obtain ⟨p, _, rfl⟩ := List.mem_map.mp ha; rfl

theorem first_late (it : Iter) (cbs : List (Nat × Outcome)) (d : Details) (s : LoadSt) :
    ∃ a r, (M.bind (invokeReloadCallbacks it none cbs) (fun _ => M.bind (publishNew none) (fun _ => M.pure d)) s).2.acts = s.acts ++ a :: r ∧ a.isOuter = true := by
  cases cbs with
  | nil => exact ⟨.publish s.pm, [], rfl, rfl⟩
  | cons c r =>
    obtain ⟨n, o⟩ := c
    refine ⟨.callback n s.pm.mid none, ?_⟩
    have hy : Adds Act.isLate (match o with
        | .ok => invokeReloadCallbacks it none r
        | _ => M.bind (invokeEveryOnFree it) (fun _ => M.throw .callback)) := by
      cases o
      · exact adds_callbacks it none r
      · exact Adds.bind (adds_free it) (fun _ => Adds.throw _)
      · exact Adds.bind (adds_free it) (fun _ => Adds.throw _)
    have hz := Adds.bind hy (fun _ => Adds.bind (adds_publish none) (fun _ => (Adds.pure d : Adds Act.isLate _)))
    obtain ⟨_, _, la, h3, _⟩ := hz { s with acts := s.acts ++ [.callback n s.pm.mid none] }
    refine ⟨la, ?_, rfl⟩
    have he : M.bind (invokeReloadCallbacks it none ((n, o) :: r)) (fun _ => M.bind (publishNew none) (fun _ => M.pure d)) s =
        M.bind (match o with
        | .ok => invokeReloadCallbacks it none r
        | _ => M.bind (invokeEveryOnFree it) (fun _ => M.throw .callback)) (fun _ => M.bind (publishNew none) (fun _ => M.pure d)) { s with acts := s.acts ++ [.callback n s.pm.mid none] } := by
      cases o <;> rfl
    rw [he, h3]
    simp

theorem staticL_eq (lg : Logger) (cfg : Config) (env : Env) (cbs : List (Nat × Outcome)) (sps : GoMap StaticPlugin) :
    ∃ D : GoMap StaticPlugin → Details, loadStaticPluginsL lg cfg env cbs sps = LM.bind (LM.lift (createManager cfg env)) (fun _ => match staticSelection cfg sps with
    | .error e => LM.lift (M.throw e)
    | .ok sel => LM.bind (withCleanupL env.it (loadStaticBodyL lg env.it sel env.data)) (fun _ => LM.lift (M.bind (invokeReloadCallbacks env.it none cbs) (fun _ => M.bind (publishNew none) (fun _ => M.pure (D sel)))))) :=
  ⟨fun sel => ⟨sel.entries.map (fun e => (e.1, "ok".toList)), by
        simpa [List.map_map, Function.comp_def] using sel.nodup⟩, rfl⟩

theorem static_end {cfg : Config} {env : Env} {n0 : Nat} (lg : Logger) (cbs : List (Nat × Outcome)) {sps : GoMap StaticPlugin} (hok : StaticOK sps) :
    CallEnd env.it lg (fun s => lg = quiet → StaticLog s) (loadStaticPluginsL lg cfg env cbs sps (logStart n0)) := by
  obtain ⟨D, hD⟩ := staticL_eq lg cfg env cbs sps
  rw [hD]
  rcases create_end (cfg := cfg) (env := env) (n0 := n0) env.it with ⟨u, t, hc, hcr⟩ | ⟨t, hc, h1, h2, h3⟩
  · generalize hr : (fun (_ : Unit) => (match staticSelection cfg sps with
      | .error e => LM.lift (M.throw e)
      | .ok sel => LM.bind (withCleanupL env.it (loadStaticBodyL lg env.it sel env.data)) (fun _ => LM.lift (M.bind (invokeReloadCallbacks env.it none cbs) (fun _ => M.bind (publishNew none) (fun _ => M.pure (D sel))))) : LM Details)) = rest
    unfold LM.bind LM.lift
    rw [hc]
    subst hr
    simp only
    cases hsel : staticSelection cfg sps with
    | error e =>
      have hcl := clean_nothing env.it hcr.acts hcr.map hcr.ordered
      exact ⟨fun l _ => ⟨_, hcl.1, hcl.2.symm⟩, fun _ => told_nothing rfl hcr.acts, fun _ => .inl ⟨by simp [LM.lift, logStart], by
        intro a ha; change a ∈ t.acts at ha; rw [hcr.acts] at ha; cases ha⟩⟩
    | ok sel =>
      simp only
      have hokSel : StaticOK sel := hok.select hsel
      generalize hd : D sel = d
      have hend := staticNew_end env.it lg sel env.data (s := ⟨t, (logStart n0).lines⟩) hokSel hcr.toFresh rfl
      have hassoc : loadStaticBodyL lg env.it sel env.data ⟨t, (logStart n0).lines⟩ = LM.bind ((LM.lift (do
        let s ← M.get
        if s.pm.pluginMap.size ≠ 0 then M.throw .twice
        loadStaticNew env.it sel)) >>= fun _ => finishLoadL lg env.it env.data) (fun _ => write lg .static) ⟨t, (logStart n0).lines⟩ := by
        change LM.bind _ (fun _ => LM.bind _ _) _ = LM.bind (LM.bind _ _) _ _
        unfold LM.bind
        rcases (LM.lift _ ⟨t, (logStart n0).lines⟩ : Exit Unit × LogSt) with ⟨_ | _ | _, _⟩ <;> rfl
      unfold LM.bind withCleanupL
      rw [hassoc]
      generalize hz : ((LM.lift (do
        let s ← M.get
        if s.pm.pluginMap.size ≠ 0 then M.throw .twice
        loadStaticNew env.it sel)) >>= fun _ => finishLoadL lg env.it env.data) = z at hend
      unfold LM.bind
      rcases hb : z ⟨t, (logStart n0).lines⟩ with ⟨e, s⟩
      rw [hb] at hend
      have failed : ∀ {α : Type} (e : Exit α), CallEnd env.it lg (fun s => lg = quiet → StaticLog s) (e, (⟨(invokeEveryOnFree env.it s.st).2, s.lines⟩ : LogSt)) := fun e =>
        ⟨fun _ _ => hend.cleanup.2, hend.cleanup.1, fun _ => .inl ⟨hend.st, free_not_outer env.it hend.clean.2⟩⟩
      cases e with
      | err e => exact failed _
      | panic p => exact failed _
      | ok u =>
        simp only
        unfold LM.write
        cases hlg : lg s.lines.length with
        | true =>
          refine ⟨fun _ _ => hend.cleanup.2, fun hq => absurd hq (quiet_false hlg), fun hq => absurd hq (quiet_false hlg)⟩
        | false =>
          have hadds : Adds Act.isLate (M.bind (invokeReloadCallbacks env.it none cbs) (fun _ => M.bind (publishNew none) (fun _ => M.pure d))) :=
            Adds.bind (adds_callbacks _ _ _) (fun _ => Adds.bind (adds_publish none) (fun _ => Adds.pure _))
          have htold : lg = quiet → Told ⟨s.st, s.lines ++ [(s.st.acts.length, .static)]⟩ := by
            intro hq nm hnm
            have := hend.told hq nm hnm
            rw [List.filter_append, this]
            simp [Line.isHook]
          refine ⟨?_, fun hq => Told.lift hadds (fun _ h => h) (htold hq), fun _ => ?_⟩
          · intro l hl
            exfalso
            change (M.bind (invokeReloadCallbacks env.it none cbs) (fun _ => M.bind (publishNew none) (fun _ => M.pure d)) s.st).1 = _ at hl
            unfold M.bind at hl
            rcases callbacks_exit env.it none cbs s.st with h | h <;> rcases hcb : invokeReloadCallbacks env.it none cbs s.st with ⟨e, t'⟩ <;> rw [hcb] at h hl <;> simp only at h <;> subst h
            · cases hl
            · have h' : (Exit.err Err.callback : Exit Details) = .err (Line.err l) := hl
              injection h' with h'
              exact Line.err_ne_callback l h'.symm
          · obtain ⟨a, r, h1, h2⟩ := first_late env.it cbs d s.st
            right
            refine ⟨s.lines, s.st.acts.length, a, rfl, hend.st, ?_, h2, ?_⟩
            · change (M.bind (invokeReloadCallbacks env.it none cbs) (fun _ => M.bind (publishNew none) (fun _ => M.pure d)) s.st).2.acts[_]? = _
              rw [h1]; simp
            · change ∀ x ∈ (M.bind (invokeReloadCallbacks env.it none cbs) (fun _ => M.bind (publishNew none) (fun _ => M.pure d)) s.st).2.acts.take _, _
              rw [h1, List.take_left']
              · exact hend.clean.2
              · rfl
  · unfold LM.bind LM.lift
    rw [hc]
    exact ⟨fun l hl => (by cases hl), fun _ => told_nothing rfl h1, fun _ => .inl ⟨by simp [logStart], by simp [h1]⟩⟩

end Hotswap
