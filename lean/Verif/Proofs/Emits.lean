import Verif.Proofs.Plan

/-!
# What the pieces of a call can do at all

A property of the actions that every piece of a call keeps, whatever way it ends. It is used to show that a call — also
one that fails — opens no other files than those it should (C15).
-/

namespace Hotswap

variable [GoRuntime]

open M

/-- Whatever state `x` starts in and however it ends, the actions it adds satisfy `Q`. -/
def Emits (Q : Act → Prop) (x : M α) : Prop := ∀ s, (∀ a ∈ s.acts, Q a) → ∀ a ∈ (x s).2.acts, Q a

variable {Q : Act → Prop}

omit [GoRuntime] in
theorem emits_pure (a : α) : Emits Q (M.pure a) := fun _ h => h
omit [GoRuntime] in
theorem emits_pure' (a : α) : Emits Q (Pure.pure a : M α) := fun _ h => h
omit [GoRuntime] in
theorem emits_throw (e : Err) : Emits Q (M.throw e : M α) := fun _ h => h
omit [GoRuntime] in
theorem emits_panic (p : Panic) : Emits Q (M.panic p : M α) := fun _ h => h
omit [GoRuntime] in
theorem emits_get : Emits Q M.get := fun _ h => h
omit [GoRuntime] in
theorem emits_modPm (f : Manager → Manager) : Emits Q (M.modPm f) := fun _ h => h
omit [GoRuntime] in
theorem emits_alloc : Emits Q M.alloc := fun _ h => h
omit [GoRuntime] in
theorem emits_emit {a : Act} (ha : Q a) : Emits Q (M.emit a) := by
  intro s h b hb
  rcases List.mem_append.mp hb with hb | hb
  · exact h b hb
  · rw [List.mem_singleton.mp hb]; exact ha
omit [GoRuntime] in
theorem emits_mbind {x : M α} {f : α → M β} (hx : Emits Q x) (hf : ∀ a, Emits Q (f a)) : Emits Q (M.bind x f) := by
  intro s h
  unfold M.bind
  have := hx s h
  rcases hxs : x s with ⟨e, s'⟩
  rw [hxs] at this
  cases e with
  | ok a => exact hf a s' this
  | err e => exact this
  | panic p => exact this
omit [GoRuntime] in
theorem emits_bind {x : M α} {f : α → M β} (hx : Emits Q x) (hf : ∀ a, Emits Q (f a)) : Emits Q (x >>= f) := emits_mbind hx hf
omit [GoRuntime] in
/-- What follows an error does not happen. -/
theorem emits_throw_bind {e : Err} {f : α → M β} : Emits Q (M.throw e >>= f) := fun _ h => h
omit [GoRuntime] in
theorem emits_forEach {l : List α} {f : α → M Unit} (hf : ∀ a ∈ l, Emits Q (f a)) : Emits Q (M.forEach l f) := by
  induction l with
  | nil => exact emits_pure ()
  | cons a r ih => exact emits_mbind (hf a (by simp)) (fun _ => ih (fun b hb => hf b (by simp [hb])))
omit [GoRuntime] in
theorem emits_ite {c : Prop} [Decidable c] {x y : M α} (hx : c → Emits Q x) (hy : ¬c → Emits Q y) : Emits Q (if c then x else y) := by
  split
  · exact hx ‹_›
  · exact hy ‹_›

omit [GoRuntime] in
theorem emits_wrapLoading {n : Str} {x : M Unit} (hx : Emits Q x) : Emits Q (wrapLoading n x) := by
  intro s h
  have := hx s h
  unfold wrapLoading
  rcases hxs : x s with ⟨e, s'⟩
  rw [hxs] at this
  cases e <;> exact this
omit [GoRuntime] in
theorem emits_tagPanic {c : Option Str} {x : M Unit} (hx : Emits Q x) : Emits Q (tagPanic c x) := by
  intro s h
  have := hx s h
  unfold tagPanic
  rcases hxs : x s with ⟨e, s'⟩
  rw [hxs] at this
  cases e <;> exact this
omit [GoRuntime] in
theorem emits_free {it : Iter} (hr : ∀ i, Q (.release i)) : Emits Q (invokeEveryOnFree it) := by
  intro s h a ha
  rcases List.mem_append.mp ha with ha | ha
  · exact h a ha
  · obtain ⟨p, _, rfl⟩ := List.mem_map.mp ha; exact hr _
omit [GoRuntime] in
theorem emits_withCleanup {it : Iter} {x : M Unit} (hr : ∀ i, Q (.release i)) (hx : Emits Q x) : Emits Q (withCleanup it x) := by
  intro s h
  have := hx s h
  unfold withCleanup
  rcases hxs : x s with ⟨e, s'⟩
  rw [hxs] at this
  cases e with
  | ok a => exact this
  | err e => exact emits_free hr _ this
  | panic p => exact emits_free hr _ this
omit [GoRuntime] in
theorem emits_invokeRet {p : Str} {r : Ret α} : Emits Q (invokeRet p r) := by
  unfold invokeRet
  cases r
  · exact emits_pure _
  · exact emits_throw _

/-- All actions but the opening of a file are allowed by `Q`. -/
def Lax (Q : Act → Prop) : Prop := ∀ a, (∀ f, a ≠ .openPlugin f) → Q a

omit [GoRuntime] in
theorem Lax.emit (h : Lax Q) {a : Act} (ha : ∀ f, a ≠ .openPlugin f) : Emits Q (M.emit a) := emits_emit (h a ha)

theorem emits_keepPlugins (hl : Lax Q) {old : Option Manager} {note : Note} {ks : List Str} : Emits Q (keepPlugins old note ks) := by
  refine emits_forEach (fun k _ => ?_)
  cases old with
  | none => exact emits_panic _
  | some om =>
    dsimp only
    cases om.pluginMap.get? k with
    | none => exact emits_panic _
    | some p => exact emits_bind (hl.emit (by simp)) (fun _ => emits_modPm _)

omit [GoRuntime] in
theorem emits_outputStats1 : Emits Q outputStats1 :=
  emits_bind emits_get (fun _ => emits_ite (fun _ => emits_pure _) (fun _ => emits_panic _))

theorem emits_loadPlugin (hl : Lax Q) {fs : FS} {info : FileInfo} (ho : fs.copyOk info.file = true → Q (.openPlugin info.file)) : Emits Q (loadPlugin fs info) := by
  unfold loadPlugin
  dsimp only
  refine emits_ite (fun _ => emits_throw_bind) (fun hc => ?_)
  refine emits_bind emits_alloc (fun i => emits_bind (emits_emit (ho (by simpa using hc))) (fun _ => ?_))
  cases fs.openPlugin info.file with
  | err => exact emits_throw _
  | panics => exact emits_panic _
  | image syms code =>
    dsimp only
    split
    · exact emits_throw _
    · exact emits_throw _
    · exact emits_bind (hl.emit (by simp)) (fun _ => emits_bind emits_invokeRet (fun _ => emits_bind (hl.emit (by simp)) (fun _ => emits_bind emits_invokeRet (fun _ =>
          emits_bind (emits_modPm _) (fun _ => hl.emit (by simp))))))

theorem emits_loadNew (hl : Lax Q) {it : Iter} {fs : FS} {m : GoMap FileInfo} (ho : ∀ k info, m.get? k = some info → fs.copyOk info.file = true → Q (.openPlugin info.file)) : Emits Q (loadNew it fs m) := by
  refine emits_forEach (fun n _ => ?_)
  cases hg : m.get? n with
  | none => exact emits_tagPanic (emits_panic _)
  | some info => exact emits_tagPanic (emits_wrapLoading (emits_loadPlugin hl (ho n info hg)))

theorem emits_bindField {k : Str} {p : Plugin} {f : Field} : Emits Q (bindField k p f) := by
  unfold bindField
  refine emits_ite (fun _ => emits_pure _) (fun _ => emits_ite (fun _ => emits_throw _) (fun _ => emits_bind emits_get (fun s => ?_)))
  cases s.pm.pluginMap.get? (name2key f.name) with
  | none => exact emits_throw _
  | some dep =>
    refine emits_ite (fun _ => emits_throw _) (fun _ => emits_ite (fun _ => emits_modPm _) (fun _ => ?_))
    cases dep.exported with
    | none => exact emits_modPm _
    | some v => exact emits_ite (fun _ => emits_throw _) (fun _ => emits_ite (fun _ => emits_panic _) (fun _ => emits_modPm _))

theorem emits_importPlugin (hl : Lax Q) {k : Str} : Emits Q (importPlugin k) := by
  refine emits_bind emits_get (fun s => ?_)
  cases s.pm.pluginMap.get? k with
  | none => exact emits_panic _
  | some p =>
    refine emits_ite (fun _ => emits_pure _) (fun _ => emits_bind (hl.emit (by simp)) (fun _ => emits_bind emits_invokeRet (fun imp => ?_)))
    cases imp.val with
    | none => exact emits_pure _
    | some v => exact emits_ite (fun _ => emits_pure _) (fun _ => emits_ite (fun _ => emits_throw _) (fun _ => emits_forEach (fun _ _ => emits_bindField)))

theorem emits_initDeps (hl : Lax Q) {it : Iter} : Emits Q (initDeps it) := by
  refine emits_bind emits_get (fun s => emits_bind (emits_forEach (fun _ _ => emits_importPlugin hl)) (fun _ => emits_bind ?_ (fun _ => emits_bind ?_ (fun _ => ?_))))
  · refine emits_bind emits_get (fun s => emits_forEach (fun e _ => emits_ite (fun _ => emits_pure _) (fun _ => ?_)))
    cases checkCyclic s.pm.pluginMap (cyclicFuel s.pm.pluginMap) (some e.2) [] with
    | clean => exact emits_pure _
    | cycle names => exact emits_throw _
    | nilDeref => exact emits_panic _
    | fuel => exact emits_panic _
  · refine emits_bind emits_get (fun s => emits_forEach (fun e _ => emits_ite (fun _ => emits_forEach (fun d _ => ?_)) (fun _ => emits_pure _)))
    cases s.pm.pluginMap.get? (name2key d) with
    | none => exact emits_panic _
    | some dep => exact emits_ite (fun _ => emits_pure _) (fun _ => emits_throw _)
  · refine emits_bind emits_get (fun s => ?_)
    cases orderPlugins it s.pm.pluginMap with
    | none => exact emits_panic _
    | some a => exact emits_modPm _

theorem emits_onLoad (hl : Lax Q) {data : Nat} : Emits Q (invokeEveryOnLoad data) := by
  refine emits_bind emits_get (fun s => emits_forEach (fun p _ => emits_ite (fun _ => emits_pure _) (fun _ => emits_bind (hl.emit (by simp)) (fun _ => ?_))))
  cases p.code.onLoad data with
  | ok => exact emits_pure _
  | err => exact emits_throw _
  | panics => exact emits_throw _

theorem emits_onInit (hl : Lax Q) : Emits Q invokeEveryOnInit := by
  refine emits_bind emits_get (fun s => emits_forEach (fun p _ => emits_ite (fun _ => emits_pure _) (fun _ => emits_bind emits_get (fun s' => emits_bind (hl.emit (by simp)) (fun _ =>
    emits_bind (emits_modPm _) (fun _ => ?_))))))
  cases (p.code.onInit s'.pm.vault).1 with
  | ok => exact emits_pure _
  | err => exact emits_throw _
  | panics => exact emits_throw _

theorem emits_liveFuncs (hl : Lax Q) {it : Iter} {before l : List Plugin} : Emits Q (setupLiveFuncs it before l) := by
  induction l generalizing before with
  | nil => exact emits_pure _
  | cons p r ih =>
    unfold setupLiveFuncs
    refine emits_bind (hl.emit (by simp)) (fun _ => ?_)
    cases p.code.liveFuncs with
    | panics => exact emits_panic _
    | ret o =>
      cases o with
      | none => exact emits_throw _
      | some m =>
        refine emits_bind (emits_forEach (fun e _ => emits_bind emits_get (fun s => ?_))) (fun _ => ih)
        cases s.pm.vault.liveFuncs.get? e.1 with
        | none => exact emits_modPm _
        | some _ => exact emits_throw _

theorem emits_liveTypes (hl : Lax Q) {it : Iter} {before l : List Plugin} : Emits Q (setupLiveTypes it before l) := by
  induction l generalizing before with
  | nil => exact emits_pure _
  | cons p r ih =>
    unfold setupLiveTypes
    refine emits_bind (hl.emit (by simp)) (fun _ => ?_)
    cases p.code.liveTypes with
    | panics => exact emits_panic _
    | ret o =>
      cases o with
      | none => exact emits_throw _
      | some m =>
        refine emits_bind (emits_forEach (fun e _ => emits_bind emits_get (fun s => ?_))) (fun _ => ih)
        cases s.pm.vault.liveTypes.get? e.1 with
        | none => exact emits_modPm _
        | some _ => exact emits_throw _

theorem emits_finishLoad (hl : Lax Q) {it : Iter} {data : Nat} : Emits Q (finishLoad it data) :=
  emits_bind (emits_initDeps hl) (fun _ => emits_bind (emits_onLoad hl) (fun _ => emits_bind
    (emits_bind emits_get (fun _ => emits_bind (emits_liveFuncs hl) (fun _ => emits_liveTypes hl))) (fun _ => emits_onInit hl)))

/-- What is known about a file when it is opened. -/
def OpenedWhy (fs : FS) (old : Option Manager) (files : List Str) (f : Str) : Prop :=
  f ∈ files ∧ NotKept fs old f ∧ (∃ data, fs.readFile f = some data) ∧ fs.copyOk f = true

theorem emits_body (hl : Lax Q) {it : Iter} {fs : FS} {files : List Str} {old : Option Manager} {data : Nat} (ho : ∀ f, OpenedWhy fs old files f → Q (.openPlugin f)) :
    Emits Q (loadPluginsBody it fs files old data) := by
  unfold loadPluginsBody
  dsimp only
  refine emits_bind emits_get (fun s => ?_)
  refine emits_ite (fun _ => emits_throw_bind) (fun _ => ?_)
  cases hd : findDuplicate it files with
  | some k => exact emits_throw _
  | none =>
    dsimp only
    cases hb : buildFileInfoMap fs files .empty with
    | error e => exact emits_throw _
    | ok m =>
      dsimp only
      refine emits_bind (emits_keepPlugins hl) (fun _ => emits_bind (emits_keepPlugins hl) (fun _ => emits_bind emits_get (fun s' => ?_)))
      have hnew : ∀ k info, ((m.filter (fun k _ => !isNotReloadable old k)).filter (fun k info => !isUnchanged old k info)).get? k = some info → fs.copyOk info.file = true → Q (.openPlugin info.file) := by
        intro k info hk hc
        rw [GoMap.get?_filter, GoMap.get?_filter] at hk
        obtain ⟨h1, h2, _⟩ := buildFileInfoMap_ok (findDuplicate_none hd) (by intro f _; rfl) hb
        cases hmk : m.get? k with
        | none => rw [hmk] at hk; cases hk
        | some v =>
          rw [hmk] at hk
          have hv : isNotReloadable old k = false ∧ isUnchanged old k v = false ∧ v = info := by
            cases e1 : isNotReloadable old k <;> simp [e1] at hk
            exact ⟨rfl, hk.1 ▸ hk.2, hk.1⟩
          obtain ⟨e1, e2, rfl⟩ := hv
          have hkf : k ∈ files.map fileKey := by
            refine Classical.byContradiction (fun hn => ?_)
            rw [h1 k hn] at hmk; cases hmk
          obtain ⟨f, hf, rfl⟩ := List.mem_map.mp hkf
          obtain ⟨info', h3, h4, h5, h6, h7⟩ := h2 f hf
          rw [hmk] at h3; cases h3
          rw [h5] at hc ⊢
          refine ho f ⟨hf, ?_, ⟨_, h6⟩, hc⟩
          intro om oldP d hom hget hd
          rw [h6] at hd; cases hd
          subst hom
          simp only [isNotReloadable, hget] at e1
          simp only [isUnchanged, hget, h7] at e2
          exact ⟨by simpa using e1, by simpa using e2⟩
      refine emits_ite (fun _ => emits_throw_bind) (fun _ => ?_)
      exact emits_bind emits_outputStats1 (fun _ => emits_bind (emits_loadNew hl hnew) (fun _ => emits_finishLoad hl))

theorem emits_loadStaticPlugin (hl : Lax Q) {sp : StaticPlugin} : Emits Q (loadStaticPlugin sp) := by
  unfold loadStaticPlugin
  refine emits_bind emits_alloc (fun i => ?_)
  cases staticMissing sp with
  | cons m ms => exact emits_throw _
  | nil =>
    exact emits_bind (hl.emit (by simp)) (fun _ => emits_bind emits_invokeRet (fun _ => emits_bind (hl.emit (by simp)) (fun _ => emits_bind emits_invokeRet (fun _ =>
      emits_bind (emits_modPm _) (fun _ => hl.emit (by simp))))))

theorem emits_loadStatic (hl : Lax Q) {it : Iter} {sps : GoMap StaticPlugin} {data : Nat} : Emits Q (loadStatic it sps data) := by
  refine emits_withCleanup (fun i => hl _ (by simp)) ?_
  unfold loadStaticBody
  dsimp only
  refine emits_bind emits_get (fun s => emits_ite (fun _ => emits_throw_bind) (fun _ => emits_bind (emits_forEach (fun n _ => ?_)) (fun _ => emits_finishLoad hl)))
  cases sps.get? n with
  | none => exact emits_tagPanic (emits_panic _)
  | some sp => exact emits_tagPanic (emits_wrapLoading (emits_loadStaticPlugin hl))

theorem emits_callbacks (hl : Lax Q) {it : Iter} {old : Option Manager} {cbs : List (Nat × Outcome)} : Emits Q (invokeReloadCallbacks it old cbs) := by
  induction cbs with
  | nil => exact emits_pure _
  | cons c r ih =>
    obtain ⟨n, o⟩ := c
    unfold invokeReloadCallbacks
    refine emits_bind emits_get (fun s => emits_bind (hl.emit (by simp)) (fun _ => ?_))
    cases o with
    | ok => exact ih
    | err => exact emits_bind (emits_free (fun i => hl _ (by simp))) (fun _ => emits_throw _)
    | panics => exact emits_bind (emits_free (fun i => hl _ (by simp))) (fun _ => emits_throw _)

theorem emits_create {cfg : Config} {env : Env} : Emits Q (createManager cfg env) := by
  unfold createManager
  refine emits_bind emits_alloc (fun mid => emits_ite (fun _ => ?_) (fun _ => emits_modPm _))
  cases env.ext with
  | panics => exact emits_panic _
  | ret ext => exact emits_modPm _

theorem emits_publishNew (hl : Lax Q) {old : Option Manager} : Emits Q (publishNew old) := by
  unfold publishNew
  cases old with
  | none => exact emits_bind (emits_pure _) (fun _ => emits_bind emits_get (fun _ => hl.emit (by simp)))
  | some om => exact emits_bind (hl.emit (by simp)) (fun _ => emits_bind emits_get (fun _ => hl.emit (by simp)))

theorem emits_impl (hl : Lax Q) {cfg : Config} {env : Env} {cbs : List (Nat × Outcome)} {old : Option Manager}
    (ho : ∀ absDir entries, env.dir = some (absDir, entries) → ∀ f, OpenedWhy env.fs old (listedFiles cfg absDir entries) f → Q (.openPlugin f)) :
    Emits Q (loadPluginsImpl cfg env cbs old) := by
  unfold loadPluginsImpl
  cases hd : env.dir with
  | none => exact emits_throw _
  | some d =>
    obtain ⟨absDir, entries⟩ := d
    dsimp only
    cases whitelistError cfg.whitelist (qualifying cfg.whitelist entries) with
    | some e => exact emits_throw _
    | none =>
      refine emits_ite (fun _ => emits_pure _) (fun _ => ?_)
      refine emits_bind emits_create (fun _ => emits_bind (emits_withCleanup (fun i => hl _ (by simp)) (emits_body hl (ho absDir entries hd))) (fun _ =>
        emits_bind (emits_callbacks hl) (fun _ => emits_bind emits_get (fun s => ?_))))
      cases buildDetails s.pm ((qualifying cfg.whitelist entries).map (joinPath absDir)) .empty with
      | none => exact emits_panic _
      | some d => exact emits_bind (emits_publishNew hl) (fun _ => emits_pure _)

theorem emits_static (hl : Lax Q) {cfg : Config} {env : Env} {cbs : List (Nat × Outcome)} {sps : GoMap StaticPlugin} : Emits Q (loadStaticPlugins cfg env cbs sps) := by
  unfold loadStaticPlugins
  refine emits_bind emits_create (fun _ => ?_)
  split
  · exact emits_throw _
  · exact emits_bind (emits_loadStatic hl) (fun _ => emits_bind (emits_callbacks hl) (fun _ => emits_bind (emits_publishNew hl) (fun _ => emits_pure _)))

/-- The files a call opens, however the call ends. -/
theorem plan_opens {cfg : Config} {env : Env} {k : Kind} {old : Option Manager} {next : Nat} {f : Str} (h : Act.openPlugin f ∈ (plan cfg env k old next).acts) :
    (cfg.static = none ∨ k ≠ .load) ∧ ∃ absDir entries, env.dir = some (absDir, entries) ∧ OpenedWhy env.fs old (listedFiles cfg absDir entries) f := by
  let Q : Act → Prop := fun a => ∀ f, a = .openPlugin f →
    (cfg.static = none ∨ k ≠ .load) ∧ ∃ absDir entries, env.dir = some (absDir, entries) ∧ OpenedWhy env.fs old (listedFiles cfg absDir entries) f
  have hl : Lax Q := fun a ha f hf => absurd hf (ha f)
  have key : ∀ {α : Type} {x : M α}, Emits Q x → ∀ a ∈ (x ⟨next, noManager, []⟩).2.acts, Q a := fun hx => hx _ (by simp)
  cases k with
  | load =>
    have hx : Emits Q (apiLoad cfg env old) := by
      unfold apiLoad
      cases hst : cfg.static with
      | some sps => exact emits_static hl
      | none =>
        refine emits_impl hl (fun absDir entries hd g hg f hf => ?_)
        cases hf
        exact ⟨.inl hst, absDir, entries, hd, hg⟩
    exact key hx _ h f rfl
  | reload extra =>
    have hx : Emits Q (apiReload cfg env extra old) := by
      refine emits_bind (emits_impl hl (fun absDir entries hd g hg f hf => ?_)) (fun _ => emits_bind (hl.emit (by simp)) (fun _ => emits_pure _))
      cases hf
      exact ⟨.inr (by simp), absDir, entries, hd, hg⟩
    exact key hx _ h f rfl

end Hotswap
