import Verif.Model.Unprintable
import Verif.Spec.Unprintable
import Verif.Proofs.PanicNil
import Verif.Proofs.Calls

/-! A call in which a panic value cannot be printed, compared with the same call in which it can. -/

namespace Hotswap

variable [GoRuntime]

open M

/-- A panic of plugin code in the body of a load. -/
def PluginPanic : Fail → Prop
  | .inl e => ownHandler e ≠ none ∨ (∃ c, e = .panicked c .user) ∨ ∃ n, e = .hookPanic n
  | .inr p => p = .user

/-- Code of a plugin or a callback has been called last. -/
def EndsRun (l : List Act) : Prop := ∃ pre a, l = pre ++ [a] ∧ RunsFunc a

/-- If plugin code panics, it is what has been called last; there is no error of a callback. -/
def Tame {α : Type} (x : M α) : Prop := ∀ s0, wp x (fun _ _ => True) (fun f s => (PluginPanic f → EndsRun s.acts) ∧ f ≠ .inl .callback) s0

theorem Tame.bind {α β : Type} {x : M α} {f : α → M β} (hx : Tame x) (hf : ∀ a, Tame (f a)) : Tame (x >>= f) := by
  intro s0
  rw [wp_bind]
  exact wp_mono (hx s0) (fun a s _ => hf a s) (fun f s h => h)

theorem Tame.pure {α : Type} (a : α) : Tame (M.pure a) := by
  intro s0; rw [wp_mpure]; trivial

theorem Tame.get : Tame M.get := by
  intro s0; rw [wp_get]; trivial

theorem Tame.emit (a : Act) : Tame (M.emit a) := by
  intro s0; rw [wp_emit]; trivial

theorem Tame.modPm (f : Manager → Manager) : Tame (M.modPm f) := by
  intro s0; exact trivial

theorem Tame.alloc : Tame M.alloc := by
  intro s0; exact trivial

theorem Tame.throw {α : Type} {e : Err} (h : ¬ PluginPanic (.inl e)) (h' : e ≠ .callback) : Tame (M.throw e : M α) := by
  intro s0; exact ⟨fun hp => absurd hp h, fun hc => h' (Sum.inl.inj hc)⟩

theorem Tame.panic {α : Type} {p : Panic} (h : p ≠ .user) : Tame (M.panic p : M α) := by
  intro s0; exact ⟨fun hp => absurd hp h, by intro hc; cases hc⟩

theorem Tame.forEach {α : Type} {l : List α} {f : α → M Unit} (hf : ∀ a ∈ l, Tame (f a)) : Tame (M.forEach l f) := by
  induction l with
  | nil => exact Tame.pure ()
  | cons a r ih => exact Tame.bind (hf a (by simp)) (fun _ => ih (fun b hb => hf b (by simp [hb])))

/-- After an action that runs plugin code, a panic is as it should be. -/
theorem Tame.after {α : Type} {a : Act} {x : M α} (ha : RunsFunc a)
    (hx : ∀ s0, EndsRun s0.acts → wp x (fun _ _ => True) (fun f s => (PluginPanic f → EndsRun s.acts) ∧ f ≠ .inl .callback) s0) : Tame (M.emit a >>= fun _ => x) := by
  intro s0
  rw [wp_bind, wp_emit]
  exact hx _ ⟨s0.acts, a, rfl, ha⟩

theorem Tame.tagPanic {c : Option Str} {x : M Unit} (hx : Tame x) : Tame (tagPanic c x) := by
  intro s0
  have := hx s0
  unfold wp Hotswap.tagPanic at *
  cases h : x s0 with
  | mk e s =>
    rw [h] at this
    cases e with
    | ok a => trivial
    | err e => exact this
    | panic p =>
      refine ⟨fun hp => this.1 ?_, by intro hc; cases hc⟩
      rcases hp with hp | ⟨c', hp⟩ | ⟨n, hp⟩
      · exact absurd rfl hp
      · cases hp; exact rfl
      · cases hp

theorem Tame.wrapLoading {n : Str} {x : M Unit} (hx : Tame x) : Tame (wrapLoading n x) := by
  intro s0
  have := hx s0
  unfold wp Hotswap.wrapLoading at *
  cases h : x s0 with
  | mk e s =>
    rw [h] at this
    cases e with
    | ok a => trivial
    | panic p => exact this
    | err e =>
      refine ⟨fun hp => this.1 ?_, by intro hc; cases hc⟩
      rcases hp with hp | ⟨c', hp⟩ | ⟨m, hp⟩
      · cases e with
        | hookPanic m => exact .inr (.inr ⟨m, rfl⟩)
        | _ => exact absurd rfl hp
      · cases hp
      · cases hp

theorem Tame.ite {α : Type} {c : Prop} [Decidable c] {x y : M α} (hx : Tame x) (hy : Tame y) : Tame (if c then x else y) := by
  split <;> assumption

/-- `invokeRet` just after the call of the function. -/
theorem tame_invoke {α β : Type} {a : Act} {n : Str} {r : Ret α} {f : α → M β} (ha : RunsFunc a) (hf : ∀ b, Tame (f b)) :
    Tame (M.emit a >>= fun _ => invokeRet n r >>= f) := by
  refine Tame.after ha ?_
  intro s0 h0
  unfold invokeRet
  rw [wp_bind]
  cases r with
  | ret b => exact hf b s0
  | panics => exact ⟨fun _ => h0, by intro hc; cases hc⟩

theorem tame_keep {old : Option Manager} {note : Note} {ks : List Str} : Tame (keepPlugins old note ks) := by
  refine Tame.forEach ?_
  intro k _
  cases old with
  | none => exact Tame.panic (by decide)
  | some om =>
    simp only
    cases om.pluginMap.get? k with
    | none => exact Tame.panic (by decide)
    | some p => exact Tame.bind (Tame.emit _) (fun _ => Tame.modPm _)

theorem tame_stats : Tame outputStats1 := by
  refine Tame.bind Tame.get (fun s => ?_)
  split
  · exact Tame.pure ()
  · exact Tame.panic (by decide)

macro "not_panic" : tactic => `(tactic| (rintro (h | ⟨c, h⟩ | ⟨c, h⟩) <;> first | exact absurd rfl h | cases h))

theorem tame_loadPlugin {fs : FS} {info : FileInfo} : Tame (loadPlugin fs info) := by
  unfold loadPlugin
  have main : Tame (do
      let i ← M.alloc
      M.emit (.openPlugin info.file)
      match fs.openPlugin info.file with
      | .err => M.throw .openFailed
      | .panics => M.panic .user
      | .image syms code =>
        match lookupAll syms pluginFuncItems with
        | .error sym => M.throw (.lookup sym)
        | .ok (m :: ms) => M.throw (.missing (m :: ms))
        | .ok [] =>
          M.emit (.callReloadable i)
          let reloadable ← invokeRet info.name code.reloadable
          M.emit (.callExport i)
          let exported ← invokeRet info.name code.exportRet
          setPlugin (name2key info.name)
            { inst := i, name := info.name, file := info.file, sha := info.sha, note := .none,
              unchanged := false, syms := some syms, code := code, deps := [], exported := exported,
              reloadable := reloadable, bound := [] }
          M.emit (.register i)) := by
    refine Tame.bind Tame.alloc (fun i => ?_)
    refine Tame.after (.open' _) ?_
    intro s0 h0
    cases fs.openPlugin info.file with
    | err => exact Tame.throw (by not_panic) (by decide) s0
    | panics => exact ⟨fun _ => h0, by intro hc; cases hc⟩
    | image syms code =>
      simp only
      cases lookupAll syms pluginFuncItems with
      | error sym => exact Tame.throw (by not_panic) (by simp) s0
      | ok l =>
        cases l with
        | cons m ms => exact Tame.throw (by not_panic) (by simp) s0
        | nil =>
          simp only
          refine tame_invoke (.reloadable _) (fun b => ?_) s0
          refine tame_invoke (.export' _) (fun v => ?_)
          exact Tame.bind (Tame.modPm _) (fun _ => Tame.emit _)
  by_cases hc : fs.copyOk info.file = false
  · rw [if_pos hc]
    exact Tame.bind (Tame.throw (by not_panic) (by decide)) (fun _ => main)
  · rw [if_neg hc]
    exact main

theorem tame_loadNew {it : Iter} {fs : FS} {infoMap : GoMap FileInfo} : Tame (loadNew it fs infoMap) := by
  refine Tame.forEach ?_
  intro name _
  split
  · exact Tame.tagPanic (Tame.panic (by decide))
  · exact Tame.tagPanic (Tame.wrapLoading tame_loadPlugin)

theorem tame_bindField {k : Str} {p : Plugin} {f : Field} : Tame (bindField k p f) := by
  unfold bindField
  refine Tame.ite (Tame.pure ()) (Tame.ite (Tame.throw (by not_panic) (by simp)) ?_)
  refine Tame.bind Tame.get (fun s => ?_)
  split
  · exact Tame.throw (by not_panic) (by simp)
  · refine Tame.ite (Tame.throw (by not_panic) (by simp)) (Tame.ite (Tame.modPm _) ?_)
    split
    · exact Tame.modPm _
    · exact Tame.ite (Tame.throw (by not_panic) (by simp)) (Tame.ite (Tame.panic (by decide)) (Tame.modPm _))

theorem tame_import {k : Str} : Tame (importPlugin k) := by
  unfold importPlugin
  refine Tame.bind Tame.get (fun s => ?_)
  split
  · exact Tame.panic (by decide)
  · refine Tame.ite (Tame.pure ()) ?_
    refine tame_invoke (.import' _) (fun imp => ?_)
    split
    · exact Tame.pure ()
    · refine Tame.ite (Tame.pure ()) (Tame.ite (Tame.throw (by not_panic) (by simp)) ?_)
      exact Tame.forEach (fun f _ => tame_bindField)

theorem tame_cyclic {it : Iter} : Tame (checkAllCyclic it) := by
  unfold checkAllCyclic
  refine Tame.bind Tame.get (fun s => Tame.forEach (fun e _ => Tame.ite (Tame.pure ()) ?_))
  split
  · exact Tame.pure ()
  · exact Tame.throw (by not_panic) (by simp)
  · exact Tame.panic (by decide)
  · exact Tame.panic (by decide)

theorem tame_rebuilt {it : Iter} : Tame (checkRebuilt it) := by
  unfold checkRebuilt
  refine Tame.bind Tame.get (fun s => Tame.forEach (fun e _ => Tame.ite (Tame.forEach (fun d _ => ?_)) (Tame.pure ())))
  split
  · exact Tame.panic (by decide)
  · exact Tame.ite (Tame.pure ()) (Tame.throw (by not_panic) (by simp))

theorem tame_setOrder {it : Iter} : Tame (setOrder it) := by
  unfold setOrder
  refine Tame.bind Tame.get (fun s => ?_)
  split
  · exact Tame.panic (by decide)
  · exact Tame.modPm _

theorem tame_initDeps {it : Iter} : Tame (initDeps it) := by
  unfold initDeps
  exact Tame.bind Tame.get (fun s => Tame.bind (Tame.forEach (fun k _ => tame_import)) (fun _ => Tame.bind tame_cyclic (fun _ => Tame.bind tame_rebuilt (fun _ => tame_setOrder))))

theorem tame_onLoad {data : Nat} : Tame (invokeEveryOnLoad data) := by
  unfold invokeEveryOnLoad
  refine Tame.bind Tame.get (fun s => Tame.forEach (fun p _ => Tame.ite (Tame.pure ()) ?_))
  refine Tame.after (.onLoad _ _) ?_
  intro s0 h0
  cases p.code.onLoad data with
  | ok => trivial
  | err => exact Tame.throw (by not_panic) (by simp) s0
  | panics => exact ⟨fun _ => h0, by intro hc; cases hc⟩

theorem tame_onInit : Tame invokeEveryOnInit := by
  unfold invokeEveryOnInit
  refine Tame.bind Tame.get (fun s => Tame.forEach (fun p _ => Tame.ite (Tame.pure ()) ?_))
  refine Tame.bind Tame.get (fun s' => ?_)
  refine Tame.after (.onInit _ _ _) ?_
  intro s0 h0
  rw [wp_bind, wp_modPm]
  cases (p.code.onInit s'.pm.vault).1 with
  | ok => trivial
  | err => exact Tame.throw (by not_panic) (by simp) _
  | panics => exact ⟨fun _ => h0, by intro hc; cases hc⟩

theorem tame_liveFuncs {it : Iter} {before l : List Plugin} : Tame (setupLiveFuncs it before l) := by
  induction l generalizing before with
  | nil => exact Tame.pure ()
  | cons p r ih =>
    unfold setupLiveFuncs
    refine Tame.after (.liveFuncs _) ?_
    intro s0 h0
    split
    · exact ⟨fun _ => h0, by intro hc; cases hc⟩
    · exact Tame.throw (by not_panic) (by simp) s0
    · refine Tame.bind (Tame.forEach (fun e _ => Tame.bind Tame.get (fun s => ?_))) (fun _ => ih) s0
      split
      · exact Tame.modPm _
      · exact Tame.throw (by not_panic) (by simp)

theorem tame_liveTypes {it : Iter} {before l : List Plugin} : Tame (setupLiveTypes it before l) := by
  induction l generalizing before with
  | nil => exact Tame.pure ()
  | cons p r ih =>
    unfold setupLiveTypes
    refine Tame.after (.liveTypes _) ?_
    intro s0 h0
    split
    · exact ⟨fun _ => h0, by intro hc; cases hc⟩
    · exact Tame.throw (by not_panic) (by simp) s0
    · refine Tame.bind (Tame.forEach (fun e _ => Tame.bind Tame.get (fun s => ?_))) (fun _ => ih) s0
      split
      · exact Tame.modPm _
      · exact Tame.throw (by not_panic) (by simp)

theorem tame_finish {it : Iter} {data : Nat} : Tame (finishLoad it data) := by
  unfold finishLoad setupVault
  exact Tame.bind tame_initDeps (fun _ => Tame.bind tame_onLoad (fun _ => Tame.bind (Tame.bind Tame.get (fun s => Tame.bind tame_liveFuncs (fun _ => tame_liveTypes))) (fun _ => tame_onInit)))

theorem tame_loadStaticPlugin {sp : StaticPlugin} : Tame (loadStaticPlugin sp) := by
  unfold loadStaticPlugin
  refine Tame.bind Tame.alloc (fun i => ?_)
  split
  · exact Tame.throw (by not_panic) (by simp)
  · refine tame_invoke (.reloadable _) (fun b => ?_)
    refine tame_invoke (.export' _) (fun v => ?_)
    exact Tame.bind (Tame.modPm _) (fun _ => Tame.emit _)

theorem tame_staticBody {it : Iter} {sps : GoMap StaticPlugin} {data : Nat} : Tame (loadStaticBody it sps data) := by
  unfold loadStaticBody loadStaticNew
  refine Tame.bind Tame.get (fun s => ?_)
  have main : Tame (do
      forEach (sortStrings (sps.range it .static)) (fun name =>
        match sps.get? name with
        | none => tagPanic none (M.panic .nilDeref)
        | some sp => tagPanic (some sp.name) (wrapLoading name (loadStaticPlugin sp)))
      finishLoad it data) := by
    refine Tame.bind (Tame.forEach (fun name _ => ?_)) (fun _ => tame_finish)
    split
    · exact Tame.tagPanic (Tame.panic (by decide))
    · exact Tame.tagPanic (Tame.wrapLoading tame_loadStaticPlugin)
  by_cases hc : s.pm.pluginMap.size ≠ 0
  · rw [if_pos hc]
    exact Tame.bind (Tame.throw (by not_panic) (by decide)) (fun _ => main)
  · rw [if_neg hc]
    exact main

theorem Tame.guard {c : Prop} [Decidable c] {e : Err} {x : M Unit} (h : ¬ PluginPanic (.inl e)) (h' : e ≠ .callback) (hx : Tame x) :
    Tame (if c then ((M.throw e : M PUnit) >>= fun _ => x) else x) :=
  Tame.ite (Tame.bind (Tame.throw h h') (fun _ => hx)) hx

theorem tame_body {it : Iter} {fs : FS} {files : List Str} {old : Option Manager} {data : Nat} : Tame (loadPluginsBody it fs files old data) := by
  unfold loadPluginsBody
  refine Tame.bind Tame.get (fun s => ?_)
  refine Tame.guard (by not_panic) (by decide) ?_
  split
  · exact Tame.throw (by not_panic) (by simp)
  · split
    · rename_i e he
      obtain ⟨f, _, rfl, _⟩ := buildFileInfoMap_err he
      exact Tame.throw (by not_panic) (by simp)
    · refine Tame.bind tame_keep (fun _ => Tame.bind tame_keep (fun _ => Tame.bind Tame.get (fun s => ?_)))
      refine Tame.guard (by not_panic) (by decide) ?_
      exact Tame.bind tame_stats (fun _ => Tame.bind tame_loadNew (fun _ => tame_finish))

/-- Why a panic escapes from a call that otherwise returns the error `e`. -/
def Reason {V : Type} (F : Printer V) (v : V) (cbs : List (Nat × Outcome)) (e : Err) : Prop :=
  ∃ w, F.print v = some w ∧ (DirectPanicked e ∨ (HookPanicked e ∧ F.print w ≠ none) ∨ (e = .callback ∧ CallbackPanics cbs))

/-- The result does not come from a panic that cannot be printed. -/
def Calm {V : Type} (F : Printer V) (v : V) (cbs : List (Nat × Outcome)) {α : Type} (x : Exit α) : Prop :=
  ∀ e, x = .err e → F.print v = none ∨ (¬ HookPanicked e ∧ ¬ DirectPanicked e ∧ (e = .callback → ¬ CallbackPanics cbs))

/-- The results of a computation with values that can be printed, and with values that cannot. -/
inductive URel {V : Type} (F : Printer V) (v : V) (cbs : List (Nat × Outcome)) (it : Iter) {α : Type} : Exit α × LoadSt → Exit α × LoadSt → Prop
  | same (x : Exit α) (s : LoadSt) (calm : Calm F v cbs x) : URel F v cbs it (x, s) (x, s)
  | second (e : Err) (cur : Option Str) (w : V) (s : LoadSt) (h : HookPanicked e) (hc : ownHandler e = some cur) (hv : F.print v = some w) (hw : F.print w = none) :
      URel F v cbs it (.err e, s) (.err (.panicked cur .user), s)
  | escapes (e : Err) (s : LoadSt) (why : Reason F v cbs e) (ends : EndsRun s.acts) :
      URel F v cbs it (.err e, { s with acts := s.acts ++ cleanupActs it s.pm }) (.panic .user, s)

theorem URel.bind {V : Type} {F : Printer V} {v : V} {cbs : List (Nat × Outcome)} {it : Iter} {α β : Type} {x x' : M α} {f f' : α → M β} {s : LoadSt}
    (hx : URel F v cbs it (x s) (x' s)) (hf : ∀ a s1, URel F v cbs it (f a s1) (f' a s1)) : URel F v cbs it ((x >>= f) s) ((x' >>= f') s) := by
  rw [bind_apply, bind_apply]
  generalize x s = r at hx
  generalize x' s = r' at hx
  cases hx with
  | same y s1 calm =>
    cases y with
    | ok a => exact hf a s1
    | err e => exact .same _ _ (fun e' he => by cases he; exact calm e rfl)
    | panic p => exact .same _ _ (fun e' he => by cases he)
  | second e cur w s1 h hc hv hw => exact .second e cur w s1 h hc hv hw
  | escapes e s1 why ends => exact .escapes e s1 why ends

theorem URel.same' {V : Type} {F : Printer V} {v : V} {cbs : List (Nat × Outcome)} {it : Iter} {α : Type} {x : M α} {s : LoadSt} (h : ∀ e, (x s).1 ≠ .err e) :
    URel F v cbs it (x s) (x s) := .same _ _ (fun e he => absurd he (h e))

theorem ownHandler_some {e : Err} {cur : Option Str} (h : ownHandler e = some cur) : HookPanicked e := by
  unfold ownHandler at h
  split at h
  · exact .late _
  · exact .loading _ _
  · cases h

theorem HookPanicked.own {e : Err} (h : HookPanicked e) : ∃ cur, ownHandler e = some cur := by
  cases h <;> exact ⟨_, rfl⟩

theorem recoverWith_rel {V : Type} {F : Printer V} {v w : V} {cbs : List (Nat × Outcome)} {it : Iter} {e : Err} {cur : Option Str} {s : LoadSt} (hv : F.print v = some w)
    (h : HookPanicked e) (hc : ownHandler e = some cur) (hends : EndsRun s.acts) :
    URel F v cbs it ((.err e, (invokeEveryOnFree it s).2) : Exit Unit × LoadSt) (recoverWith F w it cur s) := by
  unfold recoverWith
  cases hw : F.print w with
  | none => exact .second e cur w _ h hc hv hw
  | some x => exact .escapes e s ⟨w, hv, .inr (.inl ⟨h, by rw [hw]; simp⟩)⟩ hends

theorem direct_rel {V : Type} {F : Printer V} {v : V} {cbs : List (Nat × Outcome)} {it : Iter} {c : Option Str} {s : LoadSt} (hends : EndsRun s.acts) :
    URel F v cbs it ((.err (.panicked c .user), (invokeEveryOnFree it s).2) : Exit Unit × LoadSt) (recoverWith F v it c s) := by
  unfold recoverWith
  cases hv : F.print v with
  | none => exact .same _ _ (fun e _ => .inl hv)
  | some x => exact .escapes _ s ⟨x, hv, .inl ⟨c⟩⟩ hends

theorem cleanup_rel {V : Type} {F : Printer V} {v : V} {cbs : List (Nat × Outcome)} {it : Iter} {x : M Unit} (hx : Tame x) (s : LoadSt) :
    URel F v cbs it (withCleanup it x s) (withCleanupU F v it x s) := by
  have ht := hx s
  unfold wp at ht
  unfold withCleanup withCleanupU
  cases h : x s with
  | mk y s1 =>
    rw [h] at ht
    cases y with
    | ok a => exact .same _ _ (fun e he => by cases he)
    | panic p =>
      cases p with
      | user => exact direct_rel (ht.1 rfl)
      | _ =>
        refine .same _ _ (fun e he => ?_)
        cases he
        exact .inr ⟨by rintro ⟨⟩, by rintro ⟨⟩, by rintro ⟨⟩⟩
    | err e =>
      by_cases hd : ∃ c, e = .panicked c .user
      · obtain ⟨c, rfl⟩ := hd
        exact direct_rel (ht.1 (.inr (.inl ⟨c, rfl⟩)))
      · have hgoal : URel F v cbs it ((.err e, (invokeEveryOnFree it s1).2) : Exit Unit × LoadSt)
            (match ownHandler e with
              | none => (.err e, (invokeEveryOnFree it s1).2)
              | some cur =>
                match F.print v with
                | none => (.err e, (invokeEveryOnFree it s1).2)
                | some w => recoverWith F w it cur s1) := by
          cases ho : ownHandler e with
          | none =>
            refine .same _ _ (fun e' he => ?_)
            cases he
            refine .inr ⟨fun h => ?_, fun h => ?_, fun h => absurd (congrArg Sum.inl h) ht.2⟩
            · obtain ⟨cur, hc⟩ := h.own
              rw [ho] at hc; cases hc
            · obtain ⟨c⟩ := h
              exact hd ⟨c, rfl⟩
          | some cur =>
            simp only
            cases hv : F.print v with
            | none => exact .same _ _ (fun e _ => .inl hv)
            | some w => exact recoverWith_rel hv (ownHandler_some ho) ho (ht.1 (.inl (by rw [ho]; simp)))
        cases e with
        | panicked n q =>
          cases q with
          | user => exact absurd ⟨n, rfl⟩ hd
          | _ => exact hgoal
        | _ => exact hgoal

theorem callbacks_rel {V : Type} {F : Printer V} {v : V} {it : Iter} {old : Option Manager} (cbs done : List (Nat × Outcome)) (hdone : ∀ c ∈ done, c.2 = .ok) (s : LoadSt) :
    URel F v (done ++ cbs) it (invokeReloadCallbacks it old cbs s) (invokeReloadCallbacksU F v it old cbs s) := by
  induction cbs generalizing done s with
  | nil => exact .same _ _ (fun e he => by cases he)
  | cons c r ih =>
    obtain ⟨n, o⟩ := c
    unfold invokeReloadCallbacks invokeReloadCallbacksU
    rw [bind_apply, bind_apply]
    simp only [M.get]
    rw [bind_apply, bind_apply]
    simp only [M.emit]
    cases o with
    | ok =>
      have := ih (done ++ [(n, .ok)]) (by
        intro c hc
        rcases List.mem_append.mp hc with hc | hc
        · exact hdone c hc
        · simp at hc; rw [hc]) { s with acts := s.acts ++ [.callback n s.pm.mid (old.map (·.mid))] }
      simpa using this
    | err =>
      refine .same _ _ (fun e _ => .inr ?_)
      rename_i he
      cases he
      refine ⟨by rintro ⟨⟩, by rintro ⟨⟩, ?_⟩
      rintro - ⟨done', n', rest, h, hd⟩
      have : ∀ (a b : List (Nat × Outcome)) (x y : Nat × Outcome) (a' b' : List (Nat × Outcome)), (∀ c ∈ a, c.2 = .ok) → (∀ c ∈ b, c.2 = .ok) → x.2 ≠ .ok → y.2 ≠ .ok →
          a ++ x :: a' = b ++ y :: b' → x = y := by
        intro a
        induction a with
        | nil =>
          intro b x y a' b' _ hb hx _ hh
          cases b with
          | nil => simp at hh; exact hh.1
          | cons z b => simp at hh; exact absurd (hh.1 ▸ hb z (by simp)) hx
        | cons z a ih2 =>
          intro b x y a' b' ha hb hx hy hh
          cases b with
          | nil => simp at hh; exact absurd (hh.1 ▸ ha z (by simp)) hy
          | cons z' b =>
            simp only [List.cons_append, List.cons.injEq] at hh
            exact ih2 b x y a' b' (fun c hc => ha c (by simp [hc])) (fun c hc => hb c (by simp [hc])) hx hy hh.2
      have := this done done' (n, .err) (n', .panics) r rest hdone hd (by simp) (by simp) h
      cases this
    | panics =>
      simp only
      have hcp : CallbackPanics (done ++ (n, .panics) :: r) := ⟨done, n, r, rfl, hdone⟩
      cases hv : F.print v with
      | none => exact .same _ _ (fun e _ => .inl hv)
      | some w => exact .escapes .callback { s with acts := s.acts ++ [.callback n s.pm.mid (old.map (·.mid))] } ⟨w, hv, .inr (.inr ⟨rfl, hcp⟩)⟩ ⟨s.acts, _, rfl, .callback _ _ _⟩

theorem publish_rel {V : Type} {F : Printer V} {v : V} {cbs : List (Nat × Outcome)} {it : Iter} (old : Option Manager) (d : Details) (s : LoadSt) :
    URel F v cbs it ((publishNew old >>= fun _ => M.pure d) s) ((publishNew old >>= fun _ => M.pure d) s) := by
  refine URel.same' ?_
  intro e he
  cases old <;> cases he

theorem create_rel {V : Type} {F : Printer V} {v : V} {cbs : List (Nat × Outcome)} {it : Iter} {cfg : Config} {env : Env} (s : LoadSt) :
    URel F v cbs it (createManager cfg env s) (createManager cfg env s) := by
  refine URel.same' ?_
  intro e he
  unfold createManager at he
  rw [bind_apply] at he
  simp only [M.alloc] at he
  by_cases hn : cfg.hasNewExt
  · rw [if_pos hn] at he
    cases hx : env.ext with
    | panics => rw [hx] at he; cases he
    | ret x => rw [hx] at he; cases he
  · rw [if_neg hn] at he
    cases he

theorem files_rel {V : Type} {F : Printer V} {v : V} {cfg : Config} {env : Env} {cbs : List (Nat × Outcome)} {old : Option Manager} {files : List Str} (s : LoadSt) :
    URel F v cbs env.it (loadPluginFiles cfg env cbs old files s) (loadPluginFilesU F v cfg env cbs old files s) := by
  unfold loadPluginFiles loadPluginFilesU
  split
  · exact .same _ _ (fun e he => by cases he)
  · refine URel.bind (create_rel s) (fun _ s1 => URel.bind (cleanup_rel tame_body s1) (fun _ s2 => URel.bind (callbacks_rel cbs [] (by simp) s2) (fun _ s3 => ?_)))
    refine URel.bind (URel.same' (by intro e he; cases he)) (fun s4 s5 => ?_)
    cases buildDetails s4.pm files .empty with
    | none => exact .same _ _ (fun e he => by cases he)
    | some d => exact publish_rel old d s5

theorem calm_throw {V : Type} {F : Printer V} {v : V} {cbs : List (Nat × Outcome)} {it : Iter} {α : Type} {e : Err} (s : LoadSt) (h1 : ¬ HookPanicked e) (h2 : ¬ DirectPanicked e) (h3 : e ≠ .callback) :
    URel F v cbs it ((M.throw e : M α) s) ((M.throw e : M α) s) :=
  .same _ _ (fun e' he => by cases he; exact .inr ⟨h1, h2, fun h => absurd h h3⟩)

theorem impl_rel {V : Type} {F : Printer V} {v : V} {cfg : Config} {env : Env} {cbs : List (Nat × Outcome)} {old : Option Manager} (s : LoadSt) :
    URel F v cbs env.it (loadPluginsImpl cfg env cbs old s) (loadPluginsImplU F v cfg env cbs old s) := by
  unfold loadPluginsImpl loadPluginsImplU
  cases env.dir with
  | none => exact calm_throw s (by rintro ⟨⟩) (by rintro ⟨⟩) (by decide)
  | some de =>
    simp only
    cases he : whitelistError cfg.whitelist (qualifying cfg.whitelist de.2) with
    | some e =>
      obtain ⟨l, rfl⟩ := whitelistError_eq he
      exact calm_throw s (by rintro ⟨⟩) (by rintro ⟨⟩) (by simp)
    | none => exact files_rel s

theorem static_rel {V : Type} {F : Printer V} {v : V} {cfg : Config} {env : Env} {cbs : List (Nat × Outcome)} {sps : GoMap StaticPlugin} (s : LoadSt) :
    URel F v cbs env.it (loadStaticPlugins cfg env cbs sps s) (loadStaticPluginsU F v cfg env cbs sps s) := by
  unfold loadStaticPlugins loadStaticPluginsU
  refine URel.bind (create_rel s) (fun _ s1 => ?_)
  change URel F v cbs env.it ((match staticSelection cfg sps with | .error e => (M.throw e : M Details) | .ok sel => loadStatic env.it sel env.data >>= fun _ => invokeReloadCallbacks env.it none cbs >>= fun _ => publishNew none >>= fun _ => M.pure (staticDetails sel)) s1)
    ((match staticSelection cfg sps with | .error e => (M.throw e : M Details) | .ok sel => loadStaticU F v env.it sel env.data >>= fun _ => invokeReloadCallbacksU F v env.it none cbs >>= fun _ => publishNew none >>= fun _ => M.pure (staticDetails sel)) s1)
  cases he : staticSelection cfg sps with
  | error e =>
    have hsel : ∃ n, e = Err.staticNotFound n := by
      unfold staticSelection at he
      split at he
      · cases he
      · obtain ⟨n, h, _⟩ := selectStatic_err he
        exact ⟨n, h⟩
    obtain ⟨n, rfl⟩ := hsel
    exact calm_throw s1 (by rintro ⟨⟩) (by rintro ⟨⟩) (by simp)
  | ok sel => exact URel.bind (cleanup_rel tame_staticBody s1) (fun _ s2 => URel.bind (callbacks_rel cbs [] (by simp) s2) (fun _ s3 => publish_rel none _ s3))

/-- The plan of a call as a result. -/
def Plan.asRun (p : Plan) : Result × LoadSt := (p.res, { next := p.next, pm := p.built, acts := p.acts })

theorem plan_rel {V : Type} (F : Printer V) (v : V) (cfg : Config) (env : Env) (k : Kind) (old : Option Manager) (n0 : Nat) :
    URel F v (callbacks cfg env k) env.it (plan cfg env k old n0).asRun (planU F v cfg env k old n0).asRun := by
  cases k with
  | load =>
    change URel _ _ _ _ (apiLoad cfg env old _) (apiLoadU F v cfg env old _)
    unfold apiLoad apiLoadU
    cases cfg.static with
    | some sps => exact static_rel _
    | none => exact impl_rel _
  | reload extra =>
    change URel _ _ _ _ (apiReload cfg env extra old _) (apiReloadU F v cfg env extra old _)
    unfold apiReload apiReloadU
    exact URel.bind (impl_rel _) (fun d s => URel.same' (by intro e he; cases he))

/-- What the escape of a panic leaves. -/
theorem escapes_of {cfg : Config} {k : Kind} {old : Option Manager} {n0 : Nat} {p q : Plan} {e : Err} {s : LoadSt} {it : Iter} (hs : Shape cfg k old n0 p)
    (hp : p.asRun = (.err e, { s with acts := s.acts ++ cleanupActs it s.pm })) (hq : q.asRun = (.panic .user, s)) (hends : EndsRun s.acts) : Escapes p q := by
  have hpr : p.res = .err e := congrArg Prod.fst hp
  have hpa : p.acts = s.acts ++ cleanupActs it s.pm := congrArg (·.2.acts) hp
  have hpn : p.next = s.next := congrArg (·.2.next) hp
  have hpb : p.built = s.pm := congrArg (·.2.pm) hp
  have hqr : q.res = .panic .user := congrArg Prod.fst hq
  have hqa : q.acts = s.acts := congrArg (·.2.acts) hq
  have hqn : q.next = s.next := congrArg (·.2.next) hq
  have hqb : q.built = s.pm := congrArg (·.2.pm) hq
  cases hs with
  | ok pre acts d res => rw [hpr] at res; cases res
  | noop acts d res => rw [hpr] at res; cases res
  | failed pre rel acts res log stage acq nodup built origin =>
    have heq : s.acts = pre ∧ cleanupActs it s.pm = rel.map Act.release := by
      rw [hpa] at acts
      rcases List.append_eq_append_iff.mp acts with ⟨c, h1, h2⟩ | ⟨c, h1, h2⟩
      · -- `pre = s.acts ++ c`
        cases c with
        | nil => simp at h1 h2; exact ⟨h1.symm, h2⟩
        | cons x c =>
          have hx : x ∈ cleanupActs it s.pm := by rw [h2]; simp
          unfold cleanupActs at hx
          obtain ⟨P, _, rfl⟩ := List.mem_map.mp hx
          have := stage _ (by rw [h1]; simp : Act.release P.inst ∈ pre)
          simp [Act.stage] at this
      · -- `s.acts = pre ++ c`
        rcases List.eq_nil_or_concat c with rfl | ⟨c', x, rfl⟩
        · simp at h1 h2; exact ⟨h1, h2.symm⟩
        · exfalso
          obtain ⟨l, a, hl, ha⟩ := hends
          have hx : x = a := by
            rw [h1] at hl
            have := congrArg List.getLast? hl
            simpa using this
          have hm : x ∈ rel.map Act.release := by rw [h2]; simp
          obtain ⟨i, _, rfl⟩ := List.mem_map.mp hm
          subst hx
          cases ha
    obtain ⟨hpre, hrel⟩ := heq
    have h7 : ∀ x : Act, x.stage = 7 → x ∉ q.acts := by
      intro x hx hm
      rw [hqa, hpre] at hm
      have := stage x hm
      omega
    refine ⟨hqr, ⟨e, hpr⟩, ⟨rel, by rw [hpa, hrel, hqa], by rw [hqa, hpre]; exact acq, nodup⟩, by rw [hqa]; exact hends, fun i => h7 _ rfl, ?_, fun om => h7 _ rfl, h7 _ rfl, by rw [hqn, hpn], by rw [hqb, hpb]⟩
    unfold publishes
    rw [List.filterMap_eq_nil_iff]
    intro a ha
    cases a with
    | publish pm => exact absurd ha (h7 _ rfl)
    | _ => rfl

end Hotswap
