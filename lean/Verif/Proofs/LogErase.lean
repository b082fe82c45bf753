import Verif.Proofs.LogFollow
import Verif.Proofs.Unprintable

/-! The whole call with a logger: it follows the call with a quiet logger, and that is the call without a logger. -/

namespace Hotswap

variable [GoRuntime]

open LM (lift write)

/-! ### following -/

section
variable {lg : Logger} {α β : Type}

theorem follows_stats (it : Iter) (m : GoMap FileInfo) : Follows lg inBody (outputStats1L lg it m) (outputStats1L quiet it m) :=
  Follows.bind (Follows.lift EmitsOnly.get) (fun _ => Follows.ite (Follows.write _ rfl) (Follows.lift (EmitsOnly.panic _)))

theorem follows_onLoad (data : Nat) : Follows lg inBody (invokeEveryOnLoadL lg data) (invokeEveryOnLoadL quiet data) := by
  refine Follows.bind (Follows.lift EmitsOnly.get) (fun s => Follows.forEach (fun p => Follows.ite (Follows.lift (EmitsOnly.pure ())) ?_))
  refine Follows.bind (Follows.debug _ _ rfl) (fun _ => Follows.lift (EmitsOnly.bind (EmitsOnly.emit trivial) (fun _ => ?_)))
  cases p.code.onLoad data
  · exact EmitsOnly.pure ()
  · exact EmitsOnly.throw _
  · exact EmitsOnly.throw _

theorem follows_onInit : Follows lg inBody (invokeEveryOnInitL lg) (invokeEveryOnInitL quiet) := by
  refine Follows.bind (Follows.lift EmitsOnly.get) (fun s => Follows.forEach (fun p => Follows.ite (Follows.lift (EmitsOnly.pure ())) ?_))
  refine Follows.bind (Follows.debug _ _ rfl) (fun _ => Follows.lift (EmitsOnly.bind EmitsOnly.get (fun s' => EmitsOnly.bind (EmitsOnly.emit trivial) (fun _ => EmitsOnly.bind (EmitsOnly.modPm _) (fun _ => ?_)))))
  cases (p.code.onInit s'.pm.vault).1
  · exact EmitsOnly.pure ()
  · exact EmitsOnly.throw _
  · exact EmitsOnly.throw _

theorem anything_vault (it : Iter) : EmitsOnly (fun _ => True) (setupVault it) :=
  EmitsOnly.bind EmitsOnly.get (fun _ => EmitsOnly.bind (NoInc.setupLiveFuncs it [] _).weaken (fun _ => (NoInc.setupLiveTypes it [] _).weaken))

theorem follows_finish (it : Iter) (data : Nat) : Follows lg inBody (finishLoadL lg it data) (finishLoadL quiet it data) :=
  Follows.bind (Follows.lift (NoInc.initDeps it).weaken) (fun _ => Follows.bind (follows_onLoad data) (fun _ => Follows.bind (Follows.lift (anything_vault it)) (fun _ => follows_onInit)))

theorem anything_keep (it : Iter) (fs : FS) (files : List Str) (old : Option Manager) : EmitsOnly (fun _ => True) (keepStage it fs files old) := by
  unfold keepStage
  have main : EmitsOnly (fun _ => True) (match findDuplicate it files with
      | some k => (M.throw (.duplicateName k) : M (GoMap FileInfo))
      | none =>
        match buildFileInfoMap fs files .empty with
        | .error e => M.throw e
        | .ok infoMap => do
          keepPlugins old .notReloadable ((infoMap.filter (fun k _ => isNotReloadable old k)).range it .notReloadable)
          keepPlugins old .unchanged (((infoMap.filter (fun k _ => !isNotReloadable old k)).filter (fun k info => isUnchanged old k info)).range it .unchanged)
          let s ← M.get
          if ((infoMap.filter (fun k _ => !isNotReloadable old k)).filter (fun k info => !isUnchanged old k info)).size + s.pm.pluginMap.size ≠ files.length then M.throw .lenMismatch
          M.pure ((infoMap.filter (fun k _ => !isNotReloadable old k)).filter (fun k info => !isUnchanged old k info))) := by
    split
    · exact EmitsOnly.throw _
    · split
      · exact EmitsOnly.throw _
      · refine EmitsOnly.bind (onlyInc_keep _ _ _).weaken (fun _ => EmitsOnly.bind (onlyInc_keep _ _ _).weaken (fun _ => EmitsOnly.bind EmitsOnly.get (fun s => ?_)))
        split
        · exact EmitsOnly.bind (EmitsOnly.throw _) (fun _ => EmitsOnly.pure _)
        · exact EmitsOnly.pure _
  refine EmitsOnly.bind EmitsOnly.get (fun s => ?_)
  by_cases hc : s.pm.pluginMap.size ≠ 0
  · rw [if_pos hc]
    exact EmitsOnly.bind (EmitsOnly.throw _) (fun _ => main)
  · rw [if_neg hc]
    exact main

theorem follows_body (it : Iter) (fs : FS) (files : List Str) (old : Option Manager) (data : Nat) :
    Follows lg inBody (loadPluginsBodyL lg it fs files old data) (loadPluginsBodyL quiet it fs files old data) :=
  Follows.bind (Follows.lift (anything_keep it fs files old)) (fun _ => Follows.bind (follows_stats it _) (fun _ => Follows.bind (Follows.lift (NoInc.loadNew it fs _).weaken) (fun _ => follows_finish it data)))

theorem anything_staticNew (it : Iter) (sps : GoMap StaticPlugin) : EmitsOnly (fun _ => True) (do
    let s ← M.get
    if s.pm.pluginMap.size ≠ 0 then M.throw .twice
    loadStaticNew it sps) := by
  refine EmitsOnly.bind EmitsOnly.get (fun s => ?_)
  by_cases hc : s.pm.pluginMap.size ≠ 0
  · rw [if_pos hc]
    exact EmitsOnly.bind (EmitsOnly.throw _) (fun _ => (NoInc.loadStaticNew it sps).weaken)
  · rw [if_neg hc]
    exact (NoInc.loadStaticNew it sps).weaken

theorem follows_static (it : Iter) (sps : GoMap StaticPlugin) (data : Nat) : Follows lg inBody (loadStaticBodyL lg it sps data) (loadStaticBodyL quiet it sps data) :=
  Follows.bind (Follows.lift (anything_staticNew it sps)) (fun _ => Follows.bind (follows_finish it data) (fun _ => Follows.write _ rfl))

theorem follows_files (cfg : Config) (env : Env) (cbs : List (Nat × Outcome)) (old : Option Manager) (files : List Str) :
    Follows lg (afterBody env.it) (loadPluginFilesL lg cfg env cbs old files) (loadPluginFilesL quiet cfg env cbs old files) := by
  unfold loadPluginFilesL
  refine Follows.ite (Follows.lift (EmitsOnly.pure _)) ?_
  refine Follows.bind (Follows.lift (EmitsOnly.create cfg env)) (fun _ => Follows.bind (Follows.cleanup _ (follows_body _ _ _ _ _)) (fun _ => Follows.lift ?_))
  refine EmitsOnly.bind (NoInc.callbacks _ _ _).weaken (fun _ => EmitsOnly.bind EmitsOnly.get (fun s => ?_))
  cases buildDetails s.pm files .empty with
  | none => exact EmitsOnly.panic _
  | some d => exact EmitsOnly.bind (NoInc.publishNew old).weaken (fun _ => EmitsOnly.pure _)

theorem follows_impl (cfg : Config) (env : Env) (cbs : List (Nat × Outcome)) (old : Option Manager) :
    Follows lg (afterBody env.it) (loadPluginsImplL lg cfg env cbs old) (loadPluginsImplL quiet cfg env cbs old) := by
  unfold loadPluginsImplL
  split
  · exact Follows.lift (EmitsOnly.throw _)
  · simp only
    split
    · exact Follows.lift (EmitsOnly.throw _)
    · exact follows_files _ _ _ _ _

theorem follows_staticCall (cfg : Config) (env : Env) (cbs : List (Nat × Outcome)) (sps : GoMap StaticPlugin) :
    Follows lg (afterBody env.it) (loadStaticPluginsL lg cfg env cbs sps) (loadStaticPluginsL quiet cfg env cbs sps) := by
  unfold loadStaticPluginsL
  refine Follows.bind (Follows.lift (EmitsOnly.create cfg env)) (fun _ => ?_)
  split
  · exact Follows.lift (EmitsOnly.throw _)
  · exact Follows.bind (Follows.cleanup _ (follows_static _ _ _)) (fun _ => Follows.lift (EmitsOnly.bind (NoInc.callbacks _ _ _).weaken (fun _ => EmitsOnly.bind (NoInc.publishNew none).weaken (fun _ => EmitsOnly.pure _))))

/-- The call with a logger, as one computation. -/
def callL (lg : Logger) (cfg : Config) (env : Env) (k : Kind) (old : Option Manager) : LM Details :=
  match k with
  | .load => apiLoadL lg cfg env old
  | .reload extra => apiReloadL lg cfg env extra old

theorem follows_call (cfg : Config) (env : Env) (k : Kind) (old : Option Manager) : Follows lg (afterBody env.it) (callL lg cfg env k old) (callL quiet cfg env k old) := by
  cases k with
  | load =>
    unfold callL apiLoadL
    cases cfg.static with
    | some sps => exact follows_staticCall _ _ _ _
    | none => exact follows_impl _ _ _ _
  | reload extra =>
    exact Follows.bind (follows_impl _ _ _ _) (fun _ => Follows.lift (EmitsOnly.bind (EmitsOnly.emit trivial) (fun _ => EmitsOnly.pure _)))

end

/-! ### erasing -/

/-- `y` does to the state what `x` does. -/
def Erases {α : Type} (y : LM α) (x : M α) : Prop := ∀ s, ((y s).1, (y s).2.st) = x s.st

section
variable {α β : Type}

theorem Erases.lift (x : M α) : Erases (lift x) x := fun _ => rfl

theorem Erases.bind' {y : LM α} {x : M α} {g : α → LM β} {f : α → M β} (h : Erases y x) (hf : ∀ a, Erases (g a) (f a)) : Erases (LM.bind y g) (M.bind x f) := by
  intro s
  have := h s
  unfold LM.bind M.bind
  rw [← this]
  rcases y s with ⟨e, t⟩
  cases e with
  | ok a => exact hf a t
  | err e => rfl
  | panic p => rfl

theorem Erases.bind {y : LM α} {x : M α} {g : α → LM β} {f : α → M β} (h : Erases y x) (hf : ∀ a, Erases (g a) (f a)) : Erases (y >>= g) (x >>= f) := Erases.bind' h hf

theorem Erases.forEach {l : List α} {g : α → LM Unit} {f : α → M Unit} (hf : ∀ a, Erases (g a) (f a)) : Erases (LM.forEach l g) (M.forEach l f) := by
  induction l with
  | nil => exact Erases.lift (M.pure ())
  | cons a r ih => exact Erases.bind' (hf a) (fun _ => ih)

theorem Erases.ite {c : Prop} [Decidable c] {y y' : LM α} {x x' : M α} (h : Erases y x) (h' : Erases y' x') : Erases (if c then y else y') (if c then x else x') := by
  split <;> assumption

theorem erases_write (l : Line) : Erases (write quiet l) (M.pure ()) := fun _ => rfl

theorem erases_debug (p : Str) (l : Line) : Erases (debugLine quiet p l) (M.pure ()) := fun _ => rfl

theorem Erases.cleanup (it : Iter) {y : LM Unit} {x : M Unit} (h : Erases y x) : Erases (withCleanupL it y) (withCleanup it x) := by
  intro s
  have := h s
  unfold withCleanupL withCleanup
  rw [← this]
  rcases y s with ⟨_ | _ | _, t⟩ <;> rfl

/-- A computation that does nothing first. -/
theorem Erases.skip {y : LM Unit} {g : LM β} {f : M β} (h : Erases y (M.pure ())) (hf : Erases g f) : Erases (y >>= fun _ => g) f :=
  Erases.bind h (fun _ => hf)

theorem bind_assoc' {γ : Type} (x : M α) (f : α → M β) (g : β → M γ) : ((x >>= f) >>= g) = (x >>= fun a => f a >>= g) := by
  funext s
  change M.bind (M.bind x f) g s = M.bind x (fun a => M.bind (f a) g) s
  unfold M.bind
  rcases x s with ⟨_ | _ | _, _⟩ <;> rfl

theorem throw_bind' {e : Err} (f : α → M β) : ((M.throw e : M α) >>= f) = M.throw e := rfl

theorem pure_bind' (a : α) (f : α → M β) : ((M.pure a : M α) >>= f) = f a := rfl

end

theorem erases_stats (it : Iter) (m : GoMap FileInfo) : Erases (outputStats1L quiet it m) outputStats1 := by
  unfold outputStats1L outputStats1
  refine Erases.bind (Erases.lift _) (fun s => ?_)
  have hall : (((s.pm.pluginMap.rangeKV it .stats).map Prod.snd).all (fun p => p.note == .notReloadable || p.note == .unchanged)) =
      s.pm.pluginMap.vals.all (fun p => p.note == .notReloadable || p.note == .unchanged) :=
    (GoMap.rangeKV_vals_perm it .stats s.pm.pluginMap).all_eq
  simp only
  rw [hall]
  exact Erases.ite (erases_write _) (Erases.lift _)

theorem erases_onLoad (data : Nat) : Erases (invokeEveryOnLoadL quiet data) (invokeEveryOnLoad data) :=
  Erases.bind (Erases.lift _) (fun s => Erases.forEach (fun p => Erases.ite (Erases.lift _) (Erases.skip (erases_debug _ _) (Erases.lift _))))

theorem erases_onInit : Erases (invokeEveryOnInitL quiet) invokeEveryOnInit :=
  Erases.bind (Erases.lift _) (fun s => Erases.forEach (fun p => Erases.ite (Erases.lift _) (Erases.skip (erases_debug _ _) (Erases.lift _))))

theorem erases_finish (it : Iter) (data : Nat) : Erases (finishLoadL quiet it data) (finishLoad it data) :=
  Erases.bind (Erases.lift _) (fun _ => Erases.bind (erases_onLoad data) (fun _ => Erases.bind (Erases.lift _) (fun _ => erases_onInit)))

theorem body_eq (it : Iter) (fs : FS) (files : List Str) (old : Option Manager) (data : Nat) :
    loadPluginsBody it fs files old data = (keepStage it fs files old >>= fun m => outputStats1 >>= fun _ => loadNew it fs m >>= fun _ => finishLoad it data) := by
  unfold loadPluginsBody keepStage
  rw [bind_assoc']
  congr 1
  funext s
  by_cases hc : s.pm.pluginMap.size ≠ 0
  · rw [if_pos hc, if_pos hc, bind_assoc']; rfl
  · rw [if_neg hc, if_neg hc]
    cases findDuplicate it files with
    | some k => rfl
    | none =>
      simp only
      cases buildFileInfoMap fs files .empty with
      | error e => rfl
      | ok m =>
        simp only
        rw [bind_assoc']
        congr 1
        funext _
        rw [bind_assoc']
        congr 1
        funext _
        rw [bind_assoc']
        congr 1
        funext s'
        split
        · rfl
        · rfl

theorem erases_body (it : Iter) (fs : FS) (files : List Str) (old : Option Manager) (data : Nat) : Erases (loadPluginsBodyL quiet it fs files old data) (loadPluginsBody it fs files old data) := by
  rw [body_eq]
  exact Erases.bind (Erases.lift _) (fun m => Erases.bind (erases_stats it m) (fun _ => Erases.bind (Erases.lift _) (fun _ => erases_finish it data)))

theorem bind_pure' (x : M Unit) : (x >>= fun _ => M.pure ()) = x := by
  funext s
  change M.bind x (fun _ => M.pure ()) s = x s
  unfold M.bind
  rcases x s with ⟨_ | _ | _, _⟩ <;> rfl

theorem erases_staticBody (it : Iter) (sps : GoMap StaticPlugin) (data : Nat) : Erases (loadStaticBodyL quiet it sps data) (loadStaticBody it sps data) := by
  have e : loadStaticBody it sps data = ((do
      let s ← M.get
      if s.pm.pluginMap.size ≠ 0 then M.throw .twice
      loadStaticNew it sps) >>= fun _ => finishLoad it data >>= fun _ => M.pure ()) := by
    rw [bind_pure']
    unfold loadStaticBody
    rw [bind_assoc']
    congr 1
    funext s
    split
    · rfl
    · rfl
  rw [e]
  exact Erases.bind (Erases.lift _) (fun _ => Erases.bind (erases_finish it data) (fun _ => erases_write _))

theorem erases_files (cfg : Config) (env : Env) (cbs : List (Nat × Outcome)) (old : Option Manager) (files : List Str) :
    Erases (loadPluginFilesL quiet cfg env cbs old files) (loadPluginFiles cfg env cbs old files) := by
  unfold loadPluginFilesL loadPluginFiles
  exact Erases.ite (Erases.lift _) (Erases.bind (Erases.lift _) (fun _ => Erases.bind (Erases.cleanup _ (erases_body _ _ _ _ _)) (fun _ => Erases.lift _)))

theorem erases_impl (cfg : Config) (env : Env) (cbs : List (Nat × Outcome)) (old : Option Manager) :
    Erases (loadPluginsImplL quiet cfg env cbs old) (loadPluginsImpl cfg env cbs old) := by
  unfold loadPluginsImplL loadPluginsImpl
  rcases env.dir with _ | ⟨absDir, entries⟩
  · exact Erases.lift _
  · simp only
    cases whitelistError cfg.whitelist (qualifying cfg.whitelist entries) with
    | some e => exact Erases.lift _
    | none => exact erases_files _ _ _ _ _

theorem erases_static (cfg : Config) (env : Env) (cbs : List (Nat × Outcome)) (sps : GoMap StaticPlugin) :
    Erases (loadStaticPluginsL quiet cfg env cbs sps) (loadStaticPlugins cfg env cbs sps) := by
  unfold loadStaticPluginsL loadStaticPlugins
  refine Erases.bind (Erases.lift _) (fun _ => ?_)
  cases (if cfg.whitelist.isEmpty then .ok sps else selectStatic sps cfg.whitelist .empty : Except Err (GoMap StaticPlugin)) with
  | error e => exact Erases.lift _
  | ok sel => exact Erases.bind (Erases.cleanup _ (erases_staticBody _ _ _)) (fun _ => Erases.lift _)

/-- The call without a logger, as one computation. -/
def callM (cfg : Config) (env : Env) (k : Kind) (old : Option Manager) : M Details :=
  match k with
  | .load => apiLoad cfg env old
  | .reload extra => apiReload cfg env extra old

theorem erases_call (cfg : Config) (env : Env) (k : Kind) (old : Option Manager) : Erases (callL quiet cfg env k old) (callM cfg env k old) := by
  cases k with
  | load =>
    unfold callL callM apiLoadL apiLoad
    cases cfg.static with
    | some sps => exact erases_static _ _ _ _
    | none => exact erases_impl _ _ _ _
  | reload extra => exact Erases.bind (erases_impl _ _ _ _) (fun _ => Erases.lift _)

/-- The state in which a call starts. -/
def logStart (n0 : Nat) : LogSt := ⟨{ next := n0, pm := noManager, acts := [] }, []⟩

theorem plan_eq_call (cfg : Config) (env : Env) (k : Kind) (old : Option Manager) (n0 : Nat) :
    (plan cfg env k old n0).asRun = callM cfg env k old (logStart n0).st := by
  cases k <;> rfl

theorem planL_eq_call (lg : Logger) (cfg : Config) (env : Env) (k : Kind) (old : Option Manager) (n0 : Nat) :
    (planL lg cfg env k old n0).plan.asRun = ((callL lg cfg env k old (logStart n0)).1, (callL lg cfg env k old (logStart n0)).2.st) ∧
    (planL lg cfg env k old n0).lines = (callL lg cfg env k old (logStart n0)).2.lines := by
  cases k <;> exact ⟨rfl, rfl⟩

end Hotswap
