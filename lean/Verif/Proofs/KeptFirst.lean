import Verif.Proofs.Plan

/-! A call takes its references to kept plugins before anything else. -/

namespace Hotswap

variable [GoRuntime]

open M

/-- `Refs.Inc()` of a kept plugin? -/
def Act.isInc : Act → Bool
  | .inc _ => true
  | _ => false

/-- All actions of the computation satisfy `P`. -/
def EmitsOnly (P : Act → Prop) (x : M α) : Prop := ∀ s, ∃ l, (x s).2.acts = s.acts ++ l ∧ ∀ a ∈ l, P a

/-- First references to kept plugins, then no more of them. -/
def KeepsFirst (x : M α) : Prop := ∀ s, ∃ k l, (x s).2.acts = s.acts ++ (k ++ l) ∧ (∀ a ∈ k, a.isInc = true) ∧ ∀ a ∈ l, a.isInc = false

section
variable {P : Act → Prop} {α β : Type}

theorem EmitsOnly.pure (a : α) : EmitsOnly P (M.pure a) := fun s => ⟨[], by simp [M.pure], by simp⟩
theorem EmitsOnly.throw (e : Err) : EmitsOnly P (M.throw e : M α) := fun s => ⟨[], by simp [M.throw], by simp⟩
theorem EmitsOnly.panic (p : Panic) : EmitsOnly P (M.panic p : M α) := fun s => ⟨[], by simp [M.panic], by simp⟩
theorem EmitsOnly.get : EmitsOnly P M.get := fun s => ⟨[], by simp [M.get], by simp⟩
theorem EmitsOnly.alloc : EmitsOnly P M.alloc := fun s => ⟨[], by simp [M.alloc], by simp⟩
theorem EmitsOnly.modPm (f : Manager → Manager) : EmitsOnly P (M.modPm f) := fun s => ⟨[], by simp [M.modPm], by simp⟩
theorem EmitsOnly.emit {a : Act} (h : P a) : EmitsOnly P (M.emit a) := fun s => ⟨[a], rfl, by simpa using h⟩

theorem EmitsOnly.bind {x : M α} {f : α → M β} (hx : EmitsOnly P x) (hf : ∀ a, EmitsOnly P (f a)) : EmitsOnly P (M.bind x f) := by
  intro s
  obtain ⟨l, h1, h2⟩ := hx s
  unfold M.bind
  split
  · rename_i a s' he
    rw [he] at h1
    obtain ⟨l', g1, g2⟩ := hf a s'
    refine ⟨l ++ l', ?_, ?_⟩
    · rw [g1]; change s'.acts = _ at h1; rw [h1, List.append_assoc]
    · intro a ha; rcases List.mem_append.mp ha with ha | ha; exacts [h2 a ha, g2 a ha]
  · rename_i e s' he; rw [he] at h1; exact ⟨l, h1, h2⟩
  · rename_i p s' he; rw [he] at h1; exact ⟨l, h1, h2⟩

theorem EmitsOnly.forEach {l : List α} {f : α → M Unit} (hf : ∀ a, EmitsOnly P (f a)) : EmitsOnly P (M.forEach l f) := by
  induction l with
  | nil => exact EmitsOnly.pure ()
  | cons a r ih => exact EmitsOnly.bind (hf a) (fun _ => ih)

theorem EmitsOnly.keepsFirst {x : M α} (h : EmitsOnly (fun a => a.isInc = false) x) : KeepsFirst x := by
  intro s
  obtain ⟨l, h1, h2⟩ := h s
  exact ⟨[], l, h1, by simp, h2⟩

theorem EmitsOnly.onlyInc {x : M α} (h : EmitsOnly (fun a => a.isInc = true) x) : KeepsFirst x := by
  intro s
  obtain ⟨l, h1, h2⟩ := h s
  exact ⟨l, [], by simpa using h1, h2, by simp⟩

theorem KeepsFirst.after {x : M α} {f : α → M β} (hx : EmitsOnly (fun a => a.isInc = true) x) (hf : ∀ a, KeepsFirst (f a)) : KeepsFirst (M.bind x f) := by
  intro s
  obtain ⟨l, h1, h2⟩ := hx s
  unfold M.bind
  split
  · rename_i a s' he
    rw [he] at h1
    obtain ⟨k, l', g1, g2, g3⟩ := hf a s'
    refine ⟨l ++ k, l', ?_, ?_, g3⟩
    · rw [g1]; change s'.acts = _ at h1; rw [h1]; simp
    · intro a ha; rcases List.mem_append.mp ha with ha | ha; exacts [h2 a ha, g2 a ha]
  · rename_i e s' he; rw [he] at h1; exact ⟨l, [], by simpa using h1, h2, by simp⟩
  · rename_i p s' he; rw [he] at h1; exact ⟨l, [], by simpa using h1, h2, by simp⟩

theorem KeepsFirst.before {x : M α} {f : α → M β} (hx : KeepsFirst x) (hf : ∀ a, EmitsOnly (fun a => a.isInc = false) (f a)) : KeepsFirst (M.bind x f) := by
  intro s
  obtain ⟨k, l, h1, h2, h3⟩ := hx s
  unfold M.bind
  split
  · rename_i a s' he
    rw [he] at h1
    obtain ⟨l', g1, g2⟩ := hf a s'
    refine ⟨k, l ++ l', ?_, h2, ?_⟩
    · rw [g1]; change s'.acts = _ at h1; rw [h1]; simp
    · intro a ha; rcases List.mem_append.mp ha with ha | ha; exacts [h3 a ha, g2 a ha]
  · rename_i e s' he; rw [he] at h1; exact ⟨k, l, h1, h2, h3⟩
  · rename_i p s' he; rw [he] at h1; exact ⟨k, l, h1, h2, h3⟩

end

abbrev NoInc (x : M α) : Prop := EmitsOnly (fun a => a.isInc = false) x

theorem NoInc.invokeRet (p : Str) (r : Ret α) : NoInc (invokeRet p r) := by
  unfold Hotswap.invokeRet
  split
  · exact EmitsOnly.pure _
  · exact EmitsOnly.throw _

theorem NoInc.tagPanic {cur : Option Str} {x : M Unit} (h : NoInc x) : NoInc (tagPanic cur x) := by
  intro s
  obtain ⟨l, h1, h2⟩ := h s
  refine ⟨l, ?_, h2⟩
  unfold Hotswap.tagPanic
  split
  · rename_i p s' he; rw [he] at h1; exact h1
  · exact h1

theorem NoInc.wrapLoading {name : Str} {x : M Unit} (h : NoInc x) : NoInc (wrapLoading name x) := by
  intro s
  obtain ⟨l, h1, h2⟩ := h s
  refine ⟨l, ?_, h2⟩
  unfold Hotswap.wrapLoading
  split
  · rename_i p s' he; rw [he] at h1; exact h1
  · exact h1

theorem noInc_ite {c : Prop} [Decidable c] {x y : M α} (hx : NoInc x) (hy : NoInc y) : NoInc (if c then x else y) := by
  split <;> assumption

theorem NoInc.loadPlugin (fs : FS) (info : FileInfo) : NoInc (loadPlugin fs info) := by
  have rest : ∀ i, NoInc (M.bind (emit (.openPlugin info.file)) (fun _ => match fs.openPlugin info.file with
      | .err => M.throw .openFailed
      | .panics => M.panic .user
      | .image syms code =>
        match lookupAll syms pluginFuncItems with
        | .error sym => M.throw (.lookup sym)
        | .ok (m :: ms) => M.throw (.missing (m :: ms))
        | .ok [] =>
          M.bind (emit (.callReloadable i)) (fun _ => M.bind (Hotswap.invokeRet info.name code.reloadable) (fun reloadable => M.bind (emit (.callExport i)) (fun _ =>
            M.bind (Hotswap.invokeRet info.name code.exportRet) (fun exported => M.bind (setPlugin (name2key info.name)
              { inst := i, name := info.name, file := info.file, sha := info.sha, note := .none,
                unchanged := false, syms := some syms, code := code, deps := [], exported := exported,
                reloadable := reloadable, bound := [] }) (fun _ => emit (.register i)))))))) := by
    intro i
    refine EmitsOnly.bind (EmitsOnly.emit rfl) (fun _ => ?_)
    split
    · exact EmitsOnly.throw _
    · exact EmitsOnly.panic _
    · split
      · exact EmitsOnly.throw _
      · exact EmitsOnly.throw _
      · exact EmitsOnly.bind (EmitsOnly.emit rfl) (fun _ => EmitsOnly.bind (NoInc.invokeRet _ _) (fun _ => EmitsOnly.bind (EmitsOnly.emit rfl) (fun _ => EmitsOnly.bind (NoInc.invokeRet _ _) (fun _ =>
          EmitsOnly.bind (EmitsOnly.modPm _) (fun _ => EmitsOnly.emit rfl)))))
  have body : NoInc (M.bind alloc (fun i => _)) := EmitsOnly.bind EmitsOnly.alloc rest
  unfold Hotswap.loadPlugin
  simp only
  split
  · exact EmitsOnly.bind (EmitsOnly.throw _) (fun _ => body)
  · exact body

theorem NoInc.loadStaticPlugin (sp : StaticPlugin) : NoInc (loadStaticPlugin sp) := by
  unfold Hotswap.loadStaticPlugin
  refine EmitsOnly.bind EmitsOnly.alloc (fun i => ?_)
  split
  · exact EmitsOnly.throw _
  · exact EmitsOnly.bind (EmitsOnly.emit rfl) (fun _ => EmitsOnly.bind (NoInc.invokeRet _ _) (fun _ => EmitsOnly.bind (EmitsOnly.emit rfl) (fun _ => EmitsOnly.bind (NoInc.invokeRet _ _) (fun _ =>
      EmitsOnly.bind (EmitsOnly.modPm _) (fun _ => EmitsOnly.emit rfl)))))

theorem NoInc.loadNew (it : Iter) (fs : FS) (m : GoMap FileInfo) : NoInc (loadNew it fs m) := by
  unfold Hotswap.loadNew
  refine EmitsOnly.forEach (fun name => ?_)
  split
  · exact NoInc.tagPanic (EmitsOnly.panic _)
  · exact NoInc.tagPanic (NoInc.wrapLoading (NoInc.loadPlugin _ _))

theorem NoInc.loadStaticNew (it : Iter) (sps : GoMap StaticPlugin) : NoInc (loadStaticNew it sps) := by
  unfold Hotswap.loadStaticNew
  refine EmitsOnly.forEach (fun name => ?_)
  split
  · exact NoInc.tagPanic (EmitsOnly.panic _)
  · exact NoInc.tagPanic (NoInc.wrapLoading (NoInc.loadStaticPlugin _))

theorem NoInc.bindField (k : Str) (p : Plugin) (f : Field) : NoInc (bindField k p f) := by
  unfold Hotswap.bindField
  split
  · exact EmitsOnly.pure _
  split
  · exact EmitsOnly.throw _
  refine EmitsOnly.bind EmitsOnly.get (fun s => ?_)
  split
  · exact EmitsOnly.throw _
  · split
    · exact EmitsOnly.throw _
    split
    · exact EmitsOnly.modPm _
    split
    · exact EmitsOnly.modPm _
    split
    · exact EmitsOnly.throw _
    split
    · exact EmitsOnly.panic _
    · exact EmitsOnly.modPm _

theorem NoInc.importPlugin (k : Str) : NoInc (importPlugin k) := by
  unfold Hotswap.importPlugin
  refine EmitsOnly.bind EmitsOnly.get (fun s => ?_)
  split
  · exact EmitsOnly.panic _
  split
  · exact EmitsOnly.pure _
  refine EmitsOnly.bind (EmitsOnly.emit rfl) (fun _ => EmitsOnly.bind (NoInc.invokeRet _ _) (fun imp => ?_))
  split
  · exact EmitsOnly.pure _
  split
  · exact EmitsOnly.pure _
  split
  · exact EmitsOnly.throw _
  · exact EmitsOnly.forEach (NoInc.bindField _ _)

theorem NoInc.initDeps (it : Iter) : NoInc (initDeps it) := by
  unfold Hotswap.initDeps
  refine EmitsOnly.bind EmitsOnly.get (fun s => EmitsOnly.bind (EmitsOnly.forEach NoInc.importPlugin) (fun _ => EmitsOnly.bind ?_ (fun _ => EmitsOnly.bind ?_ (fun _ => ?_))))
  · unfold checkAllCyclic
    refine EmitsOnly.bind EmitsOnly.get (fun s => EmitsOnly.forEach (fun e => ?_))
    split
    · exact EmitsOnly.pure _
    split
    · exact EmitsOnly.pure _
    · exact EmitsOnly.throw _
    · exact EmitsOnly.panic _
    · exact EmitsOnly.panic _
  · unfold checkRebuilt
    refine EmitsOnly.bind EmitsOnly.get (fun s => EmitsOnly.forEach (fun e => ?_))
    split
    · refine EmitsOnly.forEach (fun d => ?_)
      split
      · exact EmitsOnly.panic _
      split
      · exact EmitsOnly.pure _
      · exact EmitsOnly.throw _
    · exact EmitsOnly.pure _
  · unfold setOrder
    refine EmitsOnly.bind EmitsOnly.get (fun s => ?_)
    split
    · exact EmitsOnly.panic _
    · exact EmitsOnly.modPm _

theorem NoInc.setupLiveFuncs (it : Iter) (before l : List Plugin) : NoInc (setupLiveFuncs it before l) := by
  induction l generalizing before with
  | nil => exact EmitsOnly.pure _
  | cons p r ih =>
    unfold Hotswap.setupLiveFuncs
    refine EmitsOnly.bind (EmitsOnly.emit rfl) (fun _ => ?_)
    split
    · exact EmitsOnly.panic _
    · exact EmitsOnly.throw _
    · refine EmitsOnly.bind ?_ (fun _ => ih _)
      unfold addLiveFuncs
      refine EmitsOnly.forEach (fun e => EmitsOnly.bind EmitsOnly.get (fun s => ?_))
      split
      · exact EmitsOnly.modPm _
      · exact EmitsOnly.throw _

theorem NoInc.setupLiveTypes (it : Iter) (before l : List Plugin) : NoInc (setupLiveTypes it before l) := by
  induction l generalizing before with
  | nil => exact EmitsOnly.pure _
  | cons p r ih =>
    unfold Hotswap.setupLiveTypes
    refine EmitsOnly.bind (EmitsOnly.emit rfl) (fun _ => ?_)
    split
    · exact EmitsOnly.panic _
    · exact EmitsOnly.throw _
    · refine EmitsOnly.bind ?_ (fun _ => ih _)
      unfold addLiveTypes
      refine EmitsOnly.forEach (fun e => EmitsOnly.bind EmitsOnly.get (fun s => ?_))
      split
      · exact EmitsOnly.modPm _
      · exact EmitsOnly.throw _

theorem NoInc.finishLoad (it : Iter) (data : Nat) : NoInc (finishLoad it data) := by
  unfold Hotswap.finishLoad
  refine EmitsOnly.bind (NoInc.initDeps it) (fun _ => EmitsOnly.bind ?_ (fun _ => EmitsOnly.bind ?_ (fun _ => ?_)))
  · unfold invokeEveryOnLoad
    refine EmitsOnly.bind EmitsOnly.get (fun s => EmitsOnly.forEach (fun p => ?_))
    split
    · exact EmitsOnly.pure _
    refine EmitsOnly.bind (EmitsOnly.emit rfl) (fun _ => ?_)
    split
    · exact EmitsOnly.pure _
    · exact EmitsOnly.throw _
    · exact EmitsOnly.throw _
  · unfold setupVault
    exact EmitsOnly.bind EmitsOnly.get (fun s => EmitsOnly.bind (NoInc.setupLiveFuncs it _ _) (fun _ => NoInc.setupLiveTypes it _ _))
  · unfold invokeEveryOnInit
    refine EmitsOnly.bind EmitsOnly.get (fun s => EmitsOnly.forEach (fun p => ?_))
    split
    · exact EmitsOnly.pure _
    refine EmitsOnly.bind EmitsOnly.get (fun s' => EmitsOnly.bind (EmitsOnly.emit rfl) (fun _ => EmitsOnly.bind (EmitsOnly.modPm _) (fun _ => ?_)))
    split
    · exact EmitsOnly.pure _
    · exact EmitsOnly.throw _
    · exact EmitsOnly.throw _

theorem NoInc.invokeEveryOnFree (it : Iter) : NoInc (invokeEveryOnFree it) := by
  intro s
  refine ⟨_, rfl, ?_⟩
  intro a ha
  obtain ⟨p, _, rfl⟩ := List.mem_map.mp ha
  rfl

theorem KeepsFirst.withCleanup {it : Iter} {x : M Unit} (h : KeepsFirst x) : KeepsFirst (withCleanup it x) := by
  intro s
  obtain ⟨k, l, h1, h2, h3⟩ := h s
  have more : ∀ s', s'.acts = s.acts ++ (k ++ l) → ∃ k l, (Hotswap.invokeEveryOnFree it s').2.acts = s.acts ++ (k ++ l) ∧ (∀ a ∈ k, a.isInc = true) ∧ ∀ a ∈ l, a.isInc = false := by
    intro s' hs
    obtain ⟨l', g1, g2⟩ := NoInc.invokeEveryOnFree it s'
    refine ⟨k, l ++ l', ?_, h2, ?_⟩
    · rw [g1, hs]; simp
    · intro a ha; rcases List.mem_append.mp ha with ha | ha; exacts [h3 a ha, g2 a ha]
  unfold Hotswap.withCleanup
  split
  · rename_i s' he; rw [he] at h1; exact ⟨k, l, h1, h2, h3⟩
  · rename_i e s' he; rw [he] at h1; exact more s' h1
  · rename_i e s' he; rw [he] at h1; exact more s' h1

theorem onlyInc_keep (old : Option Manager) (note : Note) (ks : List Str) : EmitsOnly (fun a => a.isInc = true) (keepPlugins old note ks) := by
  unfold keepPlugins
  refine EmitsOnly.forEach (fun k => ?_)
  split
  · exact EmitsOnly.panic _
  split
  · exact EmitsOnly.panic _
  · unfold addUnchanged
    exact EmitsOnly.bind (EmitsOnly.emit rfl) (fun _ => EmitsOnly.modPm _)

theorem keepsFirst_get {f : LoadSt → M α} (hf : ∀ s, KeepsFirst (f s)) : KeepsFirst (M.bind M.get f) := KeepsFirst.after EmitsOnly.get hf

theorem keepsFirst_load (it : Iter) (fs : FS) (files : List Str) (old : Option Manager) (data : Nat) : KeepsFirst (loadPlugins it fs files old data) := by
  unfold loadPlugins
  refine KeepsFirst.withCleanup ?_
  unfold loadPluginsBody
  refine keepsFirst_get (fun s => ?_)
  simp only
  have body : KeepsFirst (match findDuplicate it files with
    | some k => M.throw (.duplicateName k)
    | none =>
      match buildFileInfoMap fs files .empty with
      | .error e => M.throw e
      | .ok infoMap => M.bind (keepPlugins old .notReloadable ((infoMap.filter (fun k _ => isNotReloadable old k)).range it .notReloadable)) (fun _ =>
          M.bind (keepPlugins old .unchanged (((infoMap.filter (fun k _ => !isNotReloadable old k)).filter (fun k info => isUnchanged old k info)).range it .unchanged)) (fun _ =>
            M.bind M.get (fun s =>
              let jp := fun _ : Unit => M.bind outputStats1 (fun _ => M.bind (loadNew it fs ((infoMap.filter (fun k _ => !isNotReloadable old k)).filter (fun k info => !isUnchanged old k info))) (fun _ => finishLoad it data))
              if ((infoMap.filter (fun k _ => !isNotReloadable old k)).filter (fun k info => !isUnchanged old k info)).size + s.pm.pluginMap.size ≠ files.length then M.bind (M.throw .lenMismatch) jp else jp ())))) := by
    split
    · exact (EmitsOnly.throw _).keepsFirst
    split
    · exact (EmitsOnly.throw _).keepsFirst
    refine KeepsFirst.after (onlyInc_keep _ _ _) (fun _ => KeepsFirst.after (onlyInc_keep _ _ _) (fun _ => keepsFirst_get (fun s => EmitsOnly.keepsFirst ?_)))
    have rest : ∀ m, NoInc (M.bind outputStats1 (fun _ => M.bind (loadNew it fs m) (fun _ => finishLoad it data))) := by
      intro m
      refine EmitsOnly.bind ?_ (fun _ => EmitsOnly.bind (NoInc.loadNew it fs _) (fun _ => NoInc.finishLoad it data))
      unfold outputStats1
      refine EmitsOnly.bind EmitsOnly.get (fun s => ?_)
      split
      · exact EmitsOnly.pure _
      · exact EmitsOnly.panic _
    simp only
    split
    · exact EmitsOnly.bind (EmitsOnly.throw _) (fun _ => rest _)
    · exact rest _
  split
  · exact KeepsFirst.after (EmitsOnly.throw _) (fun _ => body)
  · exact body

theorem keepsFirst_loadStatic (it : Iter) (sps : GoMap StaticPlugin) (data : Nat) : KeepsFirst (loadStatic it sps data) := by
  unfold Hotswap.loadStatic
  refine KeepsFirst.withCleanup (EmitsOnly.keepsFirst ?_)
  unfold loadStaticBody
  refine EmitsOnly.bind EmitsOnly.get (fun s => ?_)
  simp only
  have body : NoInc (M.bind (Hotswap.loadStaticNew it sps) (fun _ => Hotswap.finishLoad it data)) := EmitsOnly.bind (NoInc.loadStaticNew it sps) (fun _ => NoInc.finishLoad it data)
  split
  · exact EmitsOnly.bind (EmitsOnly.throw _) (fun _ => body)
  · exact body

theorem NoInc.callbacks (it : Iter) (old : Option Manager) (l : List (Nat × Outcome)) : NoInc (invokeReloadCallbacks it old l) := by
  induction l with
  | nil => exact EmitsOnly.pure _
  | cons c r ih =>
    obtain ⟨n, o⟩ := c
    unfold invokeReloadCallbacks
    refine EmitsOnly.bind EmitsOnly.get (fun s => EmitsOnly.bind (EmitsOnly.emit rfl) (fun _ => ?_))
    split
    · exact ih
    · exact EmitsOnly.bind (NoInc.invokeEveryOnFree it) (fun _ => EmitsOnly.throw _)

theorem NoInc.publishNew (old : Option Manager) : NoInc (publishNew old) := by
  have rest : NoInc (M.bind M.get (fun s => emit (.publish s.pm))) := EmitsOnly.bind EmitsOnly.get (fun s => EmitsOnly.emit rfl)
  unfold Hotswap.publishNew
  simp only
  split
  · exact EmitsOnly.bind (EmitsOnly.pure _) (fun _ => rest)
  · exact EmitsOnly.bind (EmitsOnly.emit rfl) (fun _ => rest)

theorem EmitsOnly.create {P : Act → Prop} (cfg : Config) (env : Env) : EmitsOnly P (createManager cfg env) := by
  unfold createManager
  refine EmitsOnly.bind EmitsOnly.alloc (fun mid => ?_)
  split
  · split
    · exact EmitsOnly.panic _
    · exact EmitsOnly.modPm _
  · exact EmitsOnly.modPm _

theorem keepsFirst_impl (cfg : Config) (env : Env) (cbs : List (Nat × Outcome)) (old : Option Manager) : KeepsFirst (loadPluginsImpl cfg env cbs old) := by
  unfold loadPluginsImpl
  split
  · exact (EmitsOnly.throw _).keepsFirst
  simp only
  split
  · exact (EmitsOnly.throw _).keepsFirst
  unfold loadPluginFiles
  split
  · exact (EmitsOnly.pure _).keepsFirst
  refine KeepsFirst.after (EmitsOnly.create cfg env) (fun _ => KeepsFirst.before (keepsFirst_load _ _ _ _ _) (fun _ => EmitsOnly.bind (NoInc.callbacks _ _ _) (fun _ => EmitsOnly.bind EmitsOnly.get (fun s => ?_))))
  split
  · exact EmitsOnly.panic _
  · exact EmitsOnly.bind (NoInc.publishNew _) (fun _ => EmitsOnly.pure _)

theorem keepsFirst_static (cfg : Config) (env : Env) (cbs : List (Nat × Outcome)) (sps : GoMap StaticPlugin) : KeepsFirst (loadStaticPlugins cfg env cbs sps) := by
  unfold loadStaticPlugins
  refine KeepsFirst.after (EmitsOnly.create cfg env) (fun _ => ?_)
  split
  · exact (EmitsOnly.throw _).keepsFirst
  · exact KeepsFirst.before (keepsFirst_loadStatic _ _ _) (fun _ => EmitsOnly.bind (NoInc.callbacks _ _ _) (fun _ => EmitsOnly.bind (NoInc.publishNew _) (fun _ => EmitsOnly.pure _)))

/-- The references to kept plugins are the first actions of a call. -/
theorem plan_keeps_first (cfg : Config) (env : Env) (k : Kind) (old : Option Manager) (next : Nat) :
    ∃ x y, (plan cfg env k old next).acts = x ++ y ∧ (∀ a ∈ x, a.isInc = true) ∧ ∀ a ∈ y, a.isInc = false := by
  have h : ∀ {α} {x : M α} (_ : KeepsFirst x) (s : LoadSt), s.acts = [] → ∃ k l, (x s).2.acts = k ++ l ∧ (∀ a ∈ k, a.isInc = true) ∧ ∀ a ∈ l, a.isInc = false := by
    intro α x hx s hs
    obtain ⟨k, l, h1, h2⟩ := hx s
    rw [hs] at h1
    exact ⟨k, l, h1, h2⟩
  cases k with
  | load =>
    refine h (x := apiLoad cfg env old) ?_ _ rfl
    unfold apiLoad
    split
    · exact keepsFirst_static _ _ _ _
    · exact keepsFirst_impl _ _ _ _
  | reload e =>
    refine h (x := apiReload cfg env e old) ?_ _ rfl
    unfold apiReload
    exact KeepsFirst.before (keepsFirst_impl _ _ _ _) (fun _ => EmitsOnly.bind (EmitsOnly.emit rfl) (fun _ => EmitsOnly.pure _))

end Hotswap
