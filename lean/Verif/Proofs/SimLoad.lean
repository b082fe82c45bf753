import Verif.Proofs.Sim
import Verif.Model.Machine

/-!
# Every function of a load commutes with `ess`
-/

namespace Hotswap

section
variable [GoRuntime]
open M

theorem Sim.setPlugin (k : Str) (p : Plugin) : Sim (setPlugin k p) (setPlugin k p.ess) :=
  Sim.modPm (fun pm => by simp only [Manager.ess, GoMap.mapV_insert])

theorem Sim.addUnchanged (p : Plugin) (n : Note) : Sim (addUnchanged p n) (addUnchanged p.ess n) :=
  Sim.bind (Sim.emit rfl) (fun _ => Sim.setPlugin _ _)

theorem isNotReloadable_ess (old : Option Manager) (k : Str) : isNotReloadable (old.map Manager.ess) k = isNotReloadable old k := by
  cases old with
  | none => rfl
  | some om =>
    simp only [isNotReloadable, Option.map_some, Manager.ess, GoMap.get?_mapV]
    cases om.pluginMap.get? k <;> rfl

theorem isUnchanged_ess (old : Option Manager) (k : Str) (i : FileInfo) : isUnchanged (old.map Manager.ess) k i = isUnchanged old k i := by
  cases old with
  | none => rfl
  | some om =>
    simp only [isUnchanged, Option.map_some, Manager.ess, GoMap.get?_mapV]
    cases om.pluginMap.get? k <;> rfl

theorem Sim.keepPlugins (old : Option Manager) (n : Note) (ks : List Str) : Sim (keepPlugins old n ks) (keepPlugins (old.map Manager.ess) n ks) := by
  refine Sim.forEach' (fun k _ => ?_)
  cases old with
  | none => exact Sim.panic _
  | some om =>
    simp only [Option.map_some, Manager.ess, GoMap.get?_mapV]
    cases om.pluginMap.get? k with
    | none => exact Sim.panic _
    | some p => exact Sim.addUnchanged p n

theorem Sim.outputStats1 : Sim outputStats1 outputStats1 := by
  refine Sim.get (fun s => ?_)
  have e : s.ess.pm.pluginMap.vals.all (fun p => p.note == .notReloadable || p.note == .unchanged) =
      s.pm.pluginMap.vals.all (fun p => p.note == .notReloadable || p.note == .unchanged) := by
    simp only [LoadSt.ess, Manager.ess, GoMap.vals_mapV, List.all_map]
    rfl
  rw [e]
  exact Sim.ite (Sim.pure _) (Sim.panic _) s

theorem Sim.invokeRet {α : Type} (p : Str) (r : Ret α) : Sim (invokeRet p r) (invokeRet p r) := by
  cases r with
  | ret a => exact Sim.pure a
  | panics => exact Sim.throw _

theorem Sim.loadPlugin (fs : FS) (info : FileInfo) : Sim (loadPlugin fs info) (loadPlugin fs.ess info) := by
  unfold Hotswap.loadPlugin
  have hc : fs.ess.copyOk = fs.copyOk := rfl
  rw [hc]
  refine Sim.ite (fun _ => by rfl) (Sim.bind Sim.alloc (fun i => Sim.bind (Sim.emit rfl) (fun _ => ?_)))
  change Sim _ (match (fs.openPlugin info.file).ess with
    | .err => M.throw .openFailed
    | .panics => M.panic .user
    | .image syms code => _)
  cases fs.openPlugin info.file with
  | err => exact Sim.throw _
  | panics => exact Sim.panic _
  | image syms code =>
    simp only [OpenRes.ess]
    split
    · exact Sim.throw _
    · exact Sim.throw _
    · exact Sim.bind (Sim.emit rfl) (fun _ => Sim.bind (Sim.invokeRet _ _) (fun _ => Sim.bind (Sim.emit rfl) (fun _ =>
        Sim.bind (Sim.invokeRet _ _) (fun _ => Sim.bind (Sim.setPlugin _ _) (fun _ => Sim.emit rfl)))))

theorem Sim.wrapLoading {x y : M Unit} (name : Str) (h : Sim x y) : Sim (wrapLoading name x) (wrapLoading name y) := by
  intro s
  have := h s
  unfold SimAt at *
  unfold Hotswap.wrapLoading
  rw [this]
  rcases x s with ⟨_ | _ | _, _⟩ <;> rfl

theorem Sim.tagPanic {x y : M Unit} (c : Option Str) (h : Sim x y) : Sim (tagPanic c x) (tagPanic c y) := by
  intro s
  have := h s
  unfold SimAt at *
  unfold Hotswap.tagPanic
  rw [this]
  rcases x s with ⟨_ | _ | _, _⟩ <;> rfl

theorem Sim.loadNew (it : Iter) (fs : FS) (m : GoMap FileInfo) : Sim (loadNew it fs m) (loadNew it fs.ess m) := by
  refine Sim.forEach' (fun k _ => ?_)
  cases m.get? k with
  | none => exact Sim.tagPanic _ (Sim.panic _)
  | some i => exact Sim.tagPanic _ (Sim.wrapLoading _ (Sim.loadPlugin fs i))

theorem Sim.addDep (k : Str) (dep : Plugin) (f : Field) (v : Option Val) : Sim (addDep k dep f v) (addDep k dep.ess f v) := by
  refine Sim.modPm (fun pm => ?_)
  simp only [Manager.ess]
  rw [GoMap.mapV_modify Plugin.ess pm.pluginMap k _ (fun p => { p with deps := p.deps ++ [dep.name], bound := p.bound ++ [⟨f.name, dep.inst, v⟩] }) (fun _ => rfl)]
  rfl

theorem Sim.bindField (k : Str) (p : Plugin) (f : Field) : Sim (bindField k p f) (bindField k p.ess f) := by
  refine Sim.ite (Sim.pure _) (Sim.ite (Sim.throw _) (Sim.get (fun s => ?_)))
  simp only [LoadSt.ess, Manager.ess, GoMap.get?_mapV]
  cases s.pm.pluginMap.get? (name2key f.name) with
  | none => exact Sim.throw _ s
  | some dep =>
    simp only [Option.map_some]
    change SimAt _ (if (!p.reloadable && dep.reloadable) = true then M.throw (.depReloadable p.name dep.name)
      else if isNil dep.exported = true then Hotswap.addDep k dep.ess f none
      else match dep.exported with
        | none => Hotswap.addDep k dep.ess f none
        | some v => if GoRuntime.assignable v.typ f.typ = false then M.throw (.notAssignable dep.name p.name f.name)
          else if isExportedName f.name = false then M.panic .setUnexported else Hotswap.addDep k dep.ess f (some v)) s
    refine Sim.ite (Sim.throw _) (Sim.ite (Sim.addDep _ _ _ _) ?_) s
    cases dep.exported with
    | none => exact Sim.addDep _ _ _ _
    | some v => exact Sim.ite (Sim.throw _) (Sim.ite (Sim.panic _) (Sim.addDep _ _ _ _))

/-- A loop may skip what its body ignores. -/
theorem forEach_filter {α : Type} (l : List α) (q : α → Bool) (f : α → M Unit) (h : ∀ a, q a = false → f a = M.pure ()) :
    M.forEach (l.filter q) f = M.forEach l f := by
  induction l with
  | nil => rfl
  | cons a r ih =>
    rw [List.filter_cons]
    cases hq : q a with
    | true => simp only [if_true, M.forEach, ih]
    | false =>
      rw [if_neg (by decide), ih]
      simp only [M.forEach, h a hq]
      rfl

theorem bindField_ignored (k : Str) (p : Plugin) (f : Field) (h : importable f = false) : bindField k p f = M.pure () := by
  unfold bindField
  rw [if_pos h]

theorem Sim.importPlugin (k : Str) : Sim (importPlugin k) (importPlugin k) := by
  refine Sim.get (fun s => ?_)
  simp only [LoadSt.ess, Manager.ess, GoMap.get?_mapV]
  cases s.pm.pluginMap.get? k with
  | none => exact Sim.panic _ s
  | some p =>
    simp only [Option.map_some]
    change SimAt _ (if p.unchanged = true then M.pure () else _) s
    refine Sim.ite (Sim.pure _) (Sim.bind (Sim.emit rfl) (fun _ => ?_)) s
    change Sim _ (Hotswap.invokeRet p.name (p.code.importRet.map ImportRet.ess) >>= _)
    cases p.code.importRet with
    | panics => exact fun s => rfl
    | ret imp =>
      simp only [Ret.map, Hotswap.invokeRet]
      change Sim (match imp.val with
        | none => M.pure ()
        | some v => _) (match imp.val with
        | none => M.pure ()
        | some v => _)
      cases imp.val with
      | none => exact Sim.pure _
      | some v =>
        refine Sim.ite (Sim.pure _) (Sim.ite (Sim.throw _) ?_)
        simp only [ImportRet.ess]
        rw [forEach_filter _ _ _ (fun f => bindField_ignored k p.ess f)]
        exact Sim.forEach' (fun f _ => Sim.bindField k p f)

theorem checkCyclic_ess (m : GoMap Plugin) (n : Nat) : ∀ (p : Option Plugin) (vis : List Str),
    checkCyclic (m.mapV Plugin.ess) n (p.map Plugin.ess) vis = checkCyclic m n p vis := by
  induction n with
  | zero => intro p vis; rfl
  | succ n ih =>
    intro p vis
    cases p with
    | none => rfl
    | some p =>
      simp only [Option.map_some, checkCyclic]
      have : ∀ d vis, checkCyclic (m.mapV Plugin.ess) n ((m.mapV Plugin.ess).get? (name2key d)) vis = checkCyclic m n (m.get? (name2key d)) vis := by
        intro d vis
        rw [GoMap.get?_mapV, ih]
      simp only [this]
      rfl

theorem Sim.checkAllCyclic (it : Iter) : Sim (checkAllCyclic it) (checkAllCyclic it) := by
  refine Sim.get (fun s => ?_)
  simp only [LoadSt.ess, Manager.ess, GoMap.rangeKV_mapV]
  refine Sim.forEach (fun e _ => ?_) s
  change Sim _ (if e.2.deps = [] then M.pure () else _)
  refine Sim.ite (Sim.pure _) ?_
  have := checkCyclic_ess s.pm.pluginMap (cyclicFuel s.pm.pluginMap) (some e.2) []
  simp only [Option.map_some] at this
  simp only [cyclicFuel, GoMap.size_mapV] at this ⊢
  rw [this]
  split
  · exact Sim.pure _
  · exact Sim.throw _
  · exact Sim.panic _
  · exact Sim.panic _

theorem Sim.checkRebuilt (it : Iter) : Sim (checkRebuilt it) (checkRebuilt it) := by
  refine Sim.get (fun s => ?_)
  simp only [LoadSt.ess, Manager.ess, GoMap.rangeKV_mapV]
  refine Sim.forEach (fun e _ => ?_) s
  change Sim _ (if e.2.unchanged = true then M.forEach e.2.deps _ else M.pure ())
  refine Sim.ite (Sim.forEach' (fun d _ => ?_)) (Sim.pure _)
  simp only [GoMap.get?_mapV]
  cases s.pm.pluginMap.get? (name2key d) with
  | none => exact Sim.panic _
  | some dep => exact Sim.ite (Sim.pure _) (Sim.throw _)

theorem placed_ess (a : List Plugin) (p : Plugin) : placed (a.map Plugin.ess) p.ess = placed a p := by
  unfold placed
  rw [List.any_map]
  rfl

theorem depsPlaced_ess (m : GoMap Plugin) (a : List Plugin) (p : Plugin) : depsPlaced (m.mapV Plugin.ess) (a.map Plugin.ess) p.ess = depsPlaced m a p := by
  unfold depsPlaced
  change p.deps.all _ = _
  congr 1
  funext d
  rw [GoMap.get?_mapV]
  cases m.get? (name2key d) with
  | none => rfl
  | some dep => exact placed_ess a dep

theorem orderStep_ess (m : GoMap Plugin) (a : List Plugin) (k : Str) : orderStep (m.mapV Plugin.ess) (a.map Plugin.ess) k = (orderStep m a k).map Plugin.ess := by
  unfold orderStep
  rw [GoMap.get?_mapV]
  cases m.get? k with
  | none => rfl
  | some p =>
    simp only [Option.map_some, placed_ess, depsPlaced_ess]
    split
    · rfl
    · split
      · simp
      · rfl

theorem foldl_orderStep_ess (m : GoMap Plugin) (ks : List Str) : ∀ a : List Plugin,
    ks.foldl (orderStep (m.mapV Plugin.ess)) (a.map Plugin.ess) = (ks.foldl (orderStep m) a).map Plugin.ess := by
  induction ks with
  | nil => intro a; rfl
  | cons k r ih => intro a; simp only [List.foldl_cons, orderStep_ess, ih]

theorem orderLoop_ess (m : GoMap Plugin) (ks : List Str) (n : Nat) : ∀ a : List Plugin,
    orderLoop (m.mapV Plugin.ess) ks n (a.map Plugin.ess) = (orderLoop m ks n a).map (List.map Plugin.ess) := by
  induction n with
  | zero => intro a; rfl
  | succ n ih =>
    intro a
    simp only [orderLoop, List.length_map, GoMap.size_mapV, foldl_orderStep_ess, ih]
    split <;> rfl

theorem orderPlugins_ess (it : Iter) (m : GoMap Plugin) : orderPlugins it (m.mapV Plugin.ess) = (orderPlugins it m).map (List.map Plugin.ess) := by
  unfold orderPlugins
  simp only [GoMap.rangeKV_mapV, GoMap.size_mapV]
  rw [← orderLoop_ess]
  congr 1
  · simp only [List.filter_map, List.map_map]
    rfl
  · simp only [List.filter_map, List.map_map]
    rfl

theorem Sim.setOrder (it : Iter) : Sim (setOrder it) (setOrder it) := by
  refine Sim.get (fun s => ?_)
  simp only [LoadSt.ess, Manager.ess, orderPlugins_ess]
  cases orderPlugins it s.pm.pluginMap with
  | none => exact Sim.panic _ s
  | some a => exact Sim.modPm (fun pm => by rfl) s

theorem Sim.initDeps (it : Iter) : Sim (initDeps it) (initDeps it) := by
  refine Sim.get (fun s => ?_)
  simp only [LoadSt.ess, Manager.ess, GoMap.range_mapV]
  exact Sim.bind (Sim.forEach' (fun k _ => Sim.importPlugin k)) (fun _ => Sim.bind (Sim.checkAllCyclic it) (fun _ => Sim.bind (Sim.checkRebuilt it) (fun _ => Sim.setOrder it))) s

theorem Sim.invokeEveryOnLoad (d : Nat) : Sim (invokeEveryOnLoad d) (invokeEveryOnLoad d) := by
  refine Sim.get (fun s => ?_)
  refine Sim.forEach (g := Plugin.ess) (fun p _ => ?_) s
  refine Sim.ite (Sim.pure _) (Sim.bind (Sim.emit rfl) (fun _ => ?_))
  change Sim _ (match p.code.onLoad d with
    | .ok => M.pure ()
    | .err => M.throw (.hookErr p.name)
    | .panics => M.throw (.hookPanic p.name))
  cases p.code.onLoad d
  · exact Sim.pure _
  · exact Sim.throw _
  · exact Sim.throw _

theorem Sim.invokeEveryOnInit : Sim invokeEveryOnInit invokeEveryOnInit := by
  refine Sim.get (fun s => ?_)
  refine Sim.forEach (g := Plugin.ess) (fun p _ => ?_) s
  refine Sim.ite (Sim.pure _) (Sim.get (fun s' => ?_))
  refine Sim.bind (Sim.emit rfl) (fun _ => Sim.bind (Sim.modPm (fun pm => by rfl)) (fun _ => ?_)) s'
  change Sim _ (match (p.code.onInit s'.pm.vault).1 with
    | .ok => M.pure ()
    | .err => M.throw (.hookErr p.name)
    | .panics => M.throw (.hookPanic p.name))
  cases (p.code.onInit s'.pm.vault).1
  · exact Sim.pure _
  · exact Sim.throw _
  · exact Sim.throw _

theorem findOwner_funcs_ess (k : Str) (l : List Plugin) : findOwner (·.code.liveFuncs) k (l.map Plugin.ess) = findOwner (·.code.liveFuncs) k l := by
  induction l with
  | nil => rfl
  | cons q r ih =>
    simp only [List.map_cons, findOwner, ih]
    rfl

theorem findOwner_types_ess (k : Str) (l : List Plugin) : findOwner (·.code.liveTypes) k (l.map Plugin.ess) = findOwner (·.code.liveTypes) k l := by
  induction l with
  | nil => rfl
  | cons q r ih =>
    simp only [List.map_cons, findOwner, ih]
    rfl

theorem Sim.addLiveFuncs (it : Iter) (b : List Plugin) (p : Plugin) (m : GoMap Val) : Sim (addLiveFuncs it b p m) (addLiveFuncs it (b.map Plugin.ess) p.ess m) := by
  unfold Hotswap.addLiveFuncs
  rw [List.length_map]
  refine Sim.forEach' (fun e _ => Sim.get (fun s => ?_))
  rw [findOwner_funcs_ess]
  change SimAt _ (match s.pm.vault.liveFuncs.get? e.1 with
    | none => _
    | some _ => M.throw (.dupLiveFunc e.1 _ p.name)) s
  cases s.pm.vault.liveFuncs.get? e.1 with
  | none => exact Sim.modPm (fun pm => by rfl) s
  | some _ => exact Sim.throw _ s

theorem Sim.addLiveTypes (it : Iter) (b : List Plugin) (p : Plugin) (m : GoMap Val) : Sim (addLiveTypes it b p m) (addLiveTypes it (b.map Plugin.ess) p.ess m) := by
  unfold Hotswap.addLiveTypes
  rw [List.length_map]
  refine Sim.forEach' (fun e _ => Sim.get (fun s => ?_))
  rw [findOwner_types_ess]
  change SimAt _ (match s.pm.vault.liveTypes.get? e.1 with
    | none => _
    | some _ => M.throw (.dupLiveType e.1 _ p.name)) s
  cases s.pm.vault.liveTypes.get? e.1 with
  | none => exact Sim.modPm (fun pm => by rfl) s
  | some _ => exact Sim.throw _ s

theorem Sim.setupLiveFuncs (it : Iter) (l : List Plugin) : ∀ b : List Plugin, Sim (setupLiveFuncs it b l) (setupLiveFuncs it (b.map Plugin.ess) (l.map Plugin.ess)) := by
  induction l with
  | nil => intro b; exact Sim.pure _
  | cons p r ih =>
    intro b
    refine Sim.bind (Sim.emit rfl) (fun _ => ?_)
    change Sim _ (match p.code.liveFuncs with
      | .panics => M.panic .user
      | .ret none => M.throw (.badLiveFuncs p.name)
      | .ret (some m) => Hotswap.addLiveFuncs it (b.map Plugin.ess) p.ess m >>= fun _ => Hotswap.setupLiveFuncs it (b.map Plugin.ess ++ [p.ess]) (r.map Plugin.ess))
    rcases p.code.liveFuncs with (_ | m) | _
    · exact Sim.throw _
    · have := ih (b ++ [p])
      rw [List.map_append] at this
      exact Sim.bind (Sim.addLiveFuncs it b p m) (fun _ => this)
    · exact Sim.panic _

theorem Sim.setupLiveTypes (it : Iter) (l : List Plugin) : ∀ b : List Plugin, Sim (setupLiveTypes it b l) (setupLiveTypes it (b.map Plugin.ess) (l.map Plugin.ess)) := by
  induction l with
  | nil => intro b; exact Sim.pure _
  | cons p r ih =>
    intro b
    refine Sim.bind (Sim.emit rfl) (fun _ => ?_)
    change Sim _ (match p.code.liveTypes with
      | .panics => M.panic .user
      | .ret none => M.throw (.badLiveTypes p.name)
      | .ret (some m) => Hotswap.addLiveTypes it (b.map Plugin.ess) p.ess m >>= fun _ => Hotswap.setupLiveTypes it (b.map Plugin.ess ++ [p.ess]) (r.map Plugin.ess))
    rcases p.code.liveTypes with (_ | m) | _
    · exact Sim.throw _
    · have := ih (b ++ [p])
      rw [List.map_append] at this
      exact Sim.bind (Sim.addLiveTypes it b p m) (fun _ => this)
    · exact Sim.panic _

theorem Sim.setupVault (it : Iter) : Sim (setupVault it) (setupVault it) :=
  Sim.get (fun s => Sim.bind (Sim.setupLiveFuncs it s.pm.ordered []) (fun _ => Sim.setupLiveTypes it s.pm.ordered []) s)

theorem freeOrder_ess (it : Iter) (pm : Manager) : freeOrder it pm.ess = (freeOrder it pm).map Plugin.ess := by
  unfold freeOrder
  simp only [Manager.ess, List.map_eq_nil_iff, GoMap.rangeKV_mapV]
  split
  · simp
  · simp

theorem Sim.invokeEveryOnFree (it : Iter) : Sim (invokeEveryOnFree it) (invokeEveryOnFree it) := by
  intro s
  simp only [SimAt, Hotswap.invokeEveryOnFree, LoadSt.ess, freeOrder_ess, List.map_append, List.map_map]
  rfl

theorem Sim.withCleanup (it : Iter) {x y : M Unit} (h : Sim x y) : Sim (withCleanup it x) (withCleanup it y) := by
  intro s
  have h1 := h s
  unfold SimAt at *
  unfold Hotswap.withCleanup
  rw [h1]
  rcases x s with ⟨_ | _ | _, s'⟩
  · rfl
  · have := Sim.invokeEveryOnFree it s'
    unfold SimAt at this
    simp only [this]
  · have := Sim.invokeEveryOnFree it s'
    unfold SimAt at this
    simp only [this]

theorem Sim.finishLoad (it : Iter) (d : Nat) : Sim (finishLoad it d) (finishLoad it d) :=
  Sim.bind (Sim.initDeps it) (fun _ => Sim.bind (Sim.invokeEveryOnLoad d) (fun _ => Sim.bind (Sim.setupVault it) (fun _ => Sim.invokeEveryOnInit)))

theorem buildFileInfoMap_ess (fs : FS) (l : List Str) : ∀ m, buildFileInfoMap fs.ess l m = buildFileInfoMap fs l m := by
  induction l with
  | nil => intro m; rfl
  | cons f r ih =>
    intro m
    simp only [buildFileInfoMap, ih]
    rfl

theorem Sim.loadPluginsBody (it : Iter) (fs : FS) (files : List Str) (old : Option Manager) (d : Nat) :
    Sim (loadPluginsBody it fs files old d) (loadPluginsBody it fs.ess files (old.map Manager.ess) d) := by
  refine Sim.get (fun s => ?_)
  have hz : s.ess.pm.pluginMap.size = s.pm.pluginMap.size := by simp [LoadSt.ess, Manager.ess]
  rw [hz]
  refine Sim.ite (fun _ => by rfl) ?_ s
  cases findDuplicate it files with
  | some k => exact Sim.throw _
  | none =>
    simp only [buildFileInfoMap_ess]
    cases buildFileInfoMap fs files .empty with
    | error e => exact Sim.throw _
    | ok im =>
      simp only [isNotReloadable_ess, isUnchanged_ess]
      refine Sim.bind (Sim.keepPlugins _ _ _) (fun _ => Sim.bind (Sim.keepPlugins _ _ _) (fun _ => Sim.get (fun s => ?_)))
      have hz : s.ess.pm.pluginMap.size = s.pm.pluginMap.size := by simp [LoadSt.ess, Manager.ess]
      rw [hz]
      exact Sim.ite (fun _ => by rfl) (Sim.bind Sim.outputStats1 (fun _ => Sim.bind (Sim.loadNew _ _ _) (fun _ => Sim.finishLoad it d))) s

theorem Sim.loadPlugins (it : Iter) (fs : FS) (files : List Str) (old : Option Manager) (d : Nat) :
    Sim (loadPlugins it fs files old d) (loadPlugins it fs.ess files (old.map Manager.ess) d) :=
  Sim.withCleanup it (Sim.loadPluginsBody it fs files old d)

/-! ### static -/

theorem Sim.loadStaticPlugin (sp : StaticPlugin) : Sim (loadStaticPlugin sp) (loadStaticPlugin sp.ess) := by
  refine Sim.bind Sim.alloc (fun i => ?_)
  have e : staticMissing sp.ess = staticMissing sp := rfl
  rw [e]
  cases staticMissing sp with
  | cons m ms => exact Sim.throw _
  | nil => exact Sim.bind (Sim.emit rfl) (fun _ => Sim.bind (Sim.invokeRet _ _) (fun _ => Sim.bind (Sim.emit rfl) (fun _ =>
        Sim.bind (Sim.invokeRet _ _) (fun _ => Sim.bind (Sim.setPlugin _ _) (fun _ => Sim.emit rfl)))))

theorem Sim.loadStaticNew (it : Iter) (m : GoMap StaticPlugin) : Sim (loadStaticNew it m) (loadStaticNew it (m.mapV StaticPlugin.ess)) := by
  unfold Hotswap.loadStaticNew
  rw [GoMap.range_mapV]
  refine Sim.forEach' (fun k _ => ?_)
  rw [GoMap.get?_mapV]
  cases m.get? k with
  | none => exact Sim.tagPanic _ (Sim.panic _)
  | some i => exact Sim.tagPanic _ (Sim.wrapLoading _ (Sim.loadStaticPlugin i))

theorem Sim.loadStatic (it : Iter) (m : GoMap StaticPlugin) (d : Nat) : Sim (loadStatic it m d) (loadStatic it (m.mapV StaticPlugin.ess) d) := by
  refine Sim.withCleanup it (Sim.get (fun s => ?_))
  have hz : s.ess.pm.pluginMap.size = s.pm.pluginMap.size := by simp [LoadSt.ess, Manager.ess]
  rw [hz]
  exact Sim.ite (fun _ => by rfl) (Sim.bind (Sim.loadStaticNew it m) (fun _ => Sim.finishLoad it d)) s

/-! ### calls -/

theorem Sim.invokeReloadCallbacks (it : Iter) (old : Option Manager) (cbs : List (Nat × Outcome)) :
    Sim (invokeReloadCallbacks it old cbs) (invokeReloadCallbacks it (old.map Manager.ess) cbs) := by
  induction cbs with
  | nil => exact Sim.pure _
  | cons c r ih =>
    refine Sim.get (fun s => ?_)
    refine Sim.bind (Sim.emit (by cases old <;> rfl)) (fun _ => ?_) s
    cases c.2
    · exact ih
    · exact Sim.bind (Sim.invokeEveryOnFree it) (fun _ => Sim.throw _)
    · exact Sim.bind (Sim.invokeEveryOnFree it) (fun _ => Sim.throw _)

theorem buildDetails_ess (pm : Manager) (l : List Str) : ∀ d, buildDetails pm.ess l d = buildDetails pm l d := by
  induction l with
  | nil => intro d; rfl
  | cons f r ih =>
    intro d
    simp only [buildDetails, Manager.findPlugin]
    have e : pm.ess.pluginMap = pm.pluginMap.mapV Plugin.ess := rfl
    rw [e, GoMap.get?_mapV]
    cases pm.pluginMap.get? (name2key (pluginName f)) with
    | none => rfl
    | some p =>
      simp only [Option.map_some, ih]
      rfl

theorem Sim.publishNew (old : Option Manager) : Sim (publishNew old) (publishNew (old.map Manager.ess)) := by
  unfold Hotswap.publishNew
  cases old with
  | none => exact Sim.bind (Sim.pure _) (fun _ => Sim.get (fun s => Sim.emit rfl s))
  | some om => exact Sim.bind (Sim.emit rfl) (fun _ => Sim.get (fun s => Sim.emit rfl s))

theorem Sim.createManager (cfg : Config) (env : Env) : Sim (createManager cfg env) (createManager cfg.ess env.ess) := by
  refine Sim.bind Sim.alloc (fun i => ?_)
  refine Sim.ite ?_ (Sim.modPm (fun _ => by rfl))
  change Sim _ (match env.ext with
    | .panics => M.panic .user
    | .ret ext => M.modPm (fun _ => newManager i ext))
  cases env.ext with
  | panics => exact Sim.panic _
  | ret e => exact Sim.modPm (fun _ => by rfl)

theorem Sim.loadPluginFiles (cfg : Config) (env : Env) (cbs : List (Nat × Outcome)) (old : Option Manager) (files : List Str) :
    Sim (loadPluginFiles cfg env cbs old files) (loadPluginFiles cfg.ess env.ess cbs (old.map Manager.ess) files) := by
  refine Sim.ite (Sim.pure _) ?_
  refine Sim.bind (Sim.createManager cfg env) (fun _ => Sim.bind (Sim.loadPlugins env.it env.fs files old env.data) (fun _ =>
    Sim.bind (Sim.invokeReloadCallbacks env.it old cbs) (fun _ => Sim.get (fun s => ?_))))
  have e : buildDetails s.ess.pm files .empty = buildDetails s.pm files .empty := buildDetails_ess s.pm files _
  rw [e]
  cases buildDetails s.pm files .empty with
  | none => exact Sim.panic _ s
  | some d => exact Sim.bind (Sim.publishNew old) (fun _ => Sim.pure _) s

theorem Sim.loadPluginsImpl (cfg : Config) (env : Env) (cbs : List (Nat × Outcome)) (old : Option Manager) :
    Sim (loadPluginsImpl cfg env cbs old) (loadPluginsImpl cfg.ess env.ess cbs (old.map Manager.ess)) := by
  unfold Hotswap.loadPluginsImpl
  change Sim _ (match env.dir with
    | none => M.throw .directory
    | some (absDir, entries) =>
      match whitelistError cfg.whitelist (qualifying cfg.whitelist entries) with
      | some e => M.throw e
      | none => Hotswap.loadPluginFiles cfg.ess env.ess cbs (old.map Manager.ess) ((qualifying cfg.whitelist entries).map (joinPath absDir)))
  rcases env.dir with _ | ⟨a, es⟩
  · exact Sim.throw _
  · simp only
    cases whitelistError cfg.whitelist (qualifying cfg.whitelist es) with
    | some e => exact Sim.throw _
    | none => exact Sim.loadPluginFiles _ _ _ _ _

theorem selectStatic_ess (sps : GoMap StaticPlugin) (l : List Str) : ∀ acc,
    selectStatic (sps.mapV StaticPlugin.ess) l (acc.mapV StaticPlugin.ess) = (selectStatic sps l acc).map (GoMap.mapV StaticPlugin.ess) := by
  induction l with
  | nil => intro acc; rfl
  | cons n r ih =>
    intro acc
    simp only [selectStatic, GoMap.get?_mapV]
    cases sps.get? n with
    | none => rfl
    | some p => simp only [Option.map_some, ← GoMap.mapV_insert, ih]

theorem Sim.loadStaticPlugins (cfg : Config) (env : Env) (cbs : List (Nat × Outcome)) (sps : GoMap StaticPlugin) :
    Sim (loadStaticPlugins cfg env cbs sps) (loadStaticPlugins cfg.ess env.ess cbs (sps.mapV StaticPlugin.ess)) := by
  refine Sim.bind (Sim.createManager cfg env) (fun _ => ?_)
  have e : (if cfg.ess.whitelist.isEmpty then Except.ok (sps.mapV StaticPlugin.ess) else selectStatic (sps.mapV StaticPlugin.ess) cfg.ess.whitelist .empty) =
      (if cfg.whitelist.isEmpty then Except.ok sps else selectStatic sps cfg.whitelist .empty).map (GoMap.mapV StaticPlugin.ess) := by
    have h1 : cfg.ess.whitelist = cfg.whitelist := rfl
    rw [h1]
    split
    · rfl
    · exact selectStatic_ess sps cfg.whitelist .empty
  rw [e]
  cases (if cfg.whitelist.isEmpty then Except.ok sps else selectStatic sps cfg.whitelist .empty) with
  | error e => exact Sim.throw _
  | ok sel =>
    refine Sim.bind (Sim.loadStatic env.it sel env.data) (fun _ => Sim.bind (Sim.invokeReloadCallbacks env.it none cbs) (fun _ => Sim.bind (Sim.publishNew none) (fun _ => ?_)))
    intro s
    have : ∀ d d' : Details, d.entries = d'.entries → SimAt (M.pure d) (M.pure d') s := by
      intro d d' h
      rw [GoMap.ext h]
      exact Sim.pure _ s
    refine this _ _ ?_
    simp [GoMap.mapV]

theorem callbacks_ess (cfg : Config) (env : Env) (k : Kind) : callbacks cfg.ess env.ess k = callbacks cfg env k := rfl

theorem Sim.apiLoad (cfg : Config) (env : Env) (old : Option Manager) : Sim (apiLoad cfg env old) (apiLoad cfg.ess env.ess (old.map Manager.ess)) := by
  unfold Hotswap.apiLoad
  rw [callbacks_ess]
  have e : cfg.ess.static = cfg.static.map (GoMap.mapV StaticPlugin.ess) := rfl
  rw [e]
  cases cfg.static with
  | none => exact Sim.loadPluginsImpl _ _ _ _
  | some sps => exact Sim.loadStaticPlugins _ _ _ _

theorem Sim.apiReload (cfg : Config) (env : Env) (x : Option Outcome) (old : Option Manager) :
    Sim (apiReload cfg env x old) (apiReload cfg.ess env.ess x (old.map Manager.ess)) :=
  Sim.bind (Sim.loadPluginsImpl _ _ _ _) (fun _ => Sim.bind (Sim.emit rfl) (fun _ => Sim.pure _))

theorem plan_ess (cfg : Config) (env : Env) (k : Kind) (old : Option Manager) (n : Nat) :
    plan cfg.ess env.ess k (old.map Manager.ess) n = (plan cfg env k old n).ess := by
  have key : ∀ (x y : M Details), Sim x y → ∀ s : LoadSt, s.ess = s → y s = ((x s).1, (x s).2.ess) := by
    intro x y h s hs
    have := h s
    unfold SimAt at this
    rwa [hs] at this
  cases k with
  | load =>
    simp only [plan]
    rw [key _ _ (Sim.apiLoad cfg env old) _ rfl]
    rfl
  | reload x =>
    simp only [plan]
    rw [key _ _ (Sim.apiReload cfg env x old) _ rfl]
    rfl

end

end Hotswap
