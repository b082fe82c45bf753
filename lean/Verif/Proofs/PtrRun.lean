import Verif.Proofs.PtrFinish

/-!
# The pointer level refines the model: calls
-/

namespace Hotswap
namespace Ptr

section
variable [GoRuntime]

/-- How a call may leave the structs. -/
inductive End (B : Start) (s : PSt) : Prop where
  | nothing (inv : Inv B s) (me : s.me = none) (heap : s.heap = B.heap) (quiet : ∀ pm, Act.publish pm ∉ s.acts)
  | manager (alive : Alive B false s)

theorem RefAt.bindOk {α β : Type} {K : PSt → Prop} {x : PM α} {y : M α} {f : α → PM β} {f' : α → M β} {s s' : PSt} {a : α} (hx : x s = (.ok a, s')) (hy : y s.abs = (.ok a, s'.abs))
    (hf : RefAt K (f a) (f' a) s') : RefAt K (x >>= f) (y >>= f') s := by
  unfold RefAt at hf ⊢
  change M.bind y f' s.abs = ((PM.bind x f s).1, (PM.bind x f s).2.abs) ∧ K (PM.bind x f s).2
  unfold M.bind PM.bind
  rw [hx, hy]
  exact hf

theorem RefAt.bindPanic {α β : Type} {K : PSt → Prop} {x : PM α} {y : M α} {f : α → PM β} {f' : α → M β} {s s' : PSt} {p : Panic} (hx : x s = (.panic p, s')) (hy : y s.abs = (.panic p, s'.abs))
    (hk : K s') : RefAt K (x >>= f) (y >>= f') s := by
  unfold RefAt
  change M.bind y f' s.abs = ((PM.bind x f s).1, (PM.bind x f s).2.abs) ∧ K (PM.bind x f s).2
  unfold M.bind PM.bind
  rw [hx, hy]
  exact ⟨rfl, hk⟩

/-- A new manager. -/
theorem RefAt.newPluginManager {B : Start} (ext : Option Val) {s : PSt} (hi : Inv B s) (hh : s.heap = B.heap) {mid : Nat} (hm : B.next ≤ mid) (ht : mid < s.next) :
    RefAt (Alive B true) (newPluginManager mid ext) (M.modPm (fun _ => newManager mid ext)) s := by
  have hl : Live B true (Ptr.newPluginManager mid ext s).2 mid ⟨.empty, [], { liveFuncs := .empty, liveTypes := .empty, dataBag := .empty, extension := ext }⟩ :=
    { cells := hi.cells
      mgrs := by
        intro j hj
        have : j ≠ mid := by omega
        simp only [Ptr.newPluginManager, if_neg this]
        exact hi.mgrs j hj
      next := hi.next
      writes := by
        intro x hx
        rcases List.mem_append.mp hx with h | h
        · exact hi.writes x h
        · rw [List.mem_singleton.mp h]; exact hm
      me := rfl
      mgr := by simp [Ptr.newPluginManager]
      mine := hm
      taken := ht
      others := by
        intro j hj
        simp only [Ptr.newPluginManager, if_neg hj, hh]
      range := ⟨(fun k r h => nomatch h), (fun r h => nomatch h)⟩
      keyed := (fun k r h => nomatch h)
      unordered := fun _ => rfl }
  refine ⟨?_, _, _, hl⟩
  rw [hl.abs]
  rfl

theorem RefAt.create {α : Type} {B : Start} (cfg : Config) (env : Env) {s : PSt} (hi : Inv B s) (hm : s.me = none) (hh : s.heap = B.heap) (hq : ∀ pm, Act.publish pm ∉ s.acts) {f : Unit → PM α} {f' : Unit → M α}
    (hf : ∀ s', Alive B true s' → RefAt (End B) (f ()) (f' ()) s') : RefAt (End B) (createManager cfg env >>= f) (Hotswap.createManager cfg env >>= f') s := by
  have key : ∀ ext : Option Val, (createManager cfg env s = Ptr.newPluginManager s.next ext (PM.alloc s).2 ∧ Hotswap.createManager cfg env s.abs = M.modPm (fun _ => newManager s.next ext) (PM.alloc s).2.abs) →
      RefAt (End B) (createManager cfg env >>= f) (Hotswap.createManager cfg env >>= f') s := by
    rintro ext ⟨h1, h2⟩
    have h3 := RefAt.newPluginManager ext (s := (PM.alloc s).2) hi.alloc hh hi.next (Nat.lt_succ_self _)
    have hx : createManager cfg env s = (.ok (), (Ptr.newPluginManager s.next ext (PM.alloc s).2).2) := by rw [h1]; rfl
    refine RefAt.bindOk hx ?_ (hf _ h3.2)
    rw [h2, h3.1]
    rfl
  cases he : cfg.hasNewExt with
  | false =>
    refine key none ⟨?_, ?_⟩
    · unfold Ptr.createManager
      simp only [he]
      rfl
    · unfold Hotswap.createManager
      simp only [he]
      rfl
  | true =>
    cases hx : env.ext with
    | ret ext =>
      refine key ext ⟨?_, ?_⟩
      · unfold Ptr.createManager
        simp only [he, hx]
        rfl
      · unfold Hotswap.createManager
        simp only [he, hx]
        rfl
    | panics =>
      refine RefAt.bindPanic (p := .user) (s' := (PM.alloc s).2) ?_ ?_ (.nothing hi.alloc hm hh hq)
      · unfold Ptr.createManager
        simp only [he, hx]
        rfl
      · unfold Hotswap.createManager
        simp only [he, hx]
        rfl

omit [GoRuntime] in
theorem OldOK.mid {B : Start} {old : Option Nat} (ho : OldOK B old) : (oldMgr B old).map (·.mid) = old := by
  cases old with
  | none => rfl
  | some om =>
    obtain ⟨g, -, -, he⟩ := ho.view
    rw [he]; rfl

theorem RefAt.invokeReloadCallbacks {B : Start} (it : Iter) {old : Option Nat} {old' : Option Manager} (ho : old'.map (·.mid) = old) : ∀ (cbs : List (Nat × Outcome)) {s : PSt}, Alive B false s →
    RefAt (Alive B false) (invokeReloadCallbacks it old cbs) (Hotswap.invokeReloadCallbacks it old' cbs) s := by
  intro cbs
  induction cbs with
  | nil => intro s hs; exact RefAt.pure _ hs
  | cons c r ih =>
    intro s hs
    obtain ⟨n, o⟩ := c
    simp only [Ptr.invokeReloadCallbacks, Hotswap.invokeReloadCallbacks]
    refine RefAt.pget (RefAt.mget ?_)
    rw [show s.me.getD 0 = s.abs.pm.mid from by obtain ⟨i, g, hl⟩ := hs; rw [hl.abs, hl.me]; rfl, ho]
    refine RefAt.bind (J := Alive B false) (RefAt.emit _ (hs.emit _)) ?_ (fun _ h => h)
    intro _ s hs
    have hfail : RefAt (Alive B false) (do Ptr.invokeEveryOnFree it; PM.throw .callback : PM Unit) (do Hotswap.invokeEveryOnFree it; M.throw .callback) s :=
      RefAt.bind (J := Alive B false) (RefAt.invokeEveryOnFree it hs) (fun _ s hs => RefAt.throw _ hs) (fun _ h => h)
    cases o with
    | ok => exact ih hs
    | err => exact hfail
    | panics => exact hfail

theorem buildDetails_eq {h : Heap} {i : Nat} {g : PMgr} : ∀ (files : List Str) (d : Details), Hotswap.buildDetails (h.view i g) files d = buildDetails h g.pluginMap files d := by
  intro files
  induction files with
  | nil => intro d; rfl
  | cons f r ih =>
    intro d
    simp only [Hotswap.buildDetails, buildDetails, Manager.findPlugin]
    rw [show (h.view i g).pluginMap.get? (name2key (pluginName f)) = (g.pluginMap.get? (name2key (pluginName f))).map h.deref from GoMap.get?_mapV _ _ _]
    cases g.pluginMap.get? (name2key (pluginName f)) with
    | none => rfl
    | some p => exact ih _

omit [GoRuntime] in
/-- The old manager can still be seen, unchanged. -/
theorem OldOK.still {B : Start} {om : Nat} (ho : OldOK B (some om)) {s : PSt} (hi : Inv B s) : ∃ pm, oldMgr B (some om) = some pm ∧ s.heap.manager om = some pm := by
  obtain ⟨g, hg, hr, he⟩ := ho.view
  refine ⟨_, he, ?_⟩
  rw [Heap.manager_some ((ho.get hi).trans hg)]
  exact congrArg some (view_congr hr (fun r hlt => hi.deref hlt))

theorem RefAt.publishNew {B : Start} {old : Option Nat} (ho : OldOK B old) {s : PSt} (hs : Alive B false s) :
    RefAt (Alive B false) (publishNew old) (Hotswap.publishNew (oldMgr B old)) s := by
  have hp : ∀ s0 s' : PSt, s0.heap = s.heap → s0.me = s.me → s'.abs.pm = s.abs.pm → Alive B false s' →
      RefAt (Alive B false) (match s0.me.bind s0.heap.manager with | none => PM.panic .nilDeref | some pm => PM.emit (.publish pm) : PM Unit) (do let s ← M.get; M.emit (.publish s.pm)) s' := by
    intro s0 s' h1 h2 h3 hs'
    obtain ⟨i, g, hl⟩ := hs
    have : s0.me.bind s0.heap.manager = some s'.abs.pm := by
      rw [h1, h2, h3, hl.abs, hl.me]
      exact Heap.manager_some hl.mgr
    rw [this]
    exact RefAt.mget (RefAt.emit _ (hs'.emit _))
  unfold Ptr.publishNew Hotswap.publishNew
  refine RefAt.pget ?_
  cases old with
  | none => exact hp s s rfl rfl rfl hs
  | some om =>
    obtain ⟨pm, h1, h2⟩ := ho.still hs.inv
    rw [h1]
    simp only [h2]
    refine RefAt.bind (J := fun s' => Alive B false s' ∧ s'.abs.pm = s.abs.pm) (RefAt.emit _ ⟨hs.emit _, rfl⟩) ?_ (fun _ h => h.1)
    intro _ s' hs'
    exact hp s s' rfl rfl hs'.2 hs'.1

theorem RefAt.loadPluginFiles {B : Start} (cfg : Config) (env : Env) (cbs : List (Nat × Outcome)) {old : Option Nat} (ho : OldOK B old) (files : List Str) {s : PSt}
    (hi : Inv B s) (hm : s.me = none) (hh : s.heap = B.heap) (hq : ∀ pm, Act.publish pm ∉ s.acts) :
    RefAt (End B) (loadPluginFiles cfg env cbs old files) (Hotswap.loadPluginFiles cfg env cbs (oldMgr B old) files) s := by
  unfold Ptr.loadPluginFiles Hotswap.loadPluginFiles
  refine RefAt.ite (fun _ => RefAt.pure _ (.nothing hi hm hh hq)) (fun _ => ?_)
  refine RefAt.create cfg env hi hm hh hq ?_
  intro s hs
  have hw : ∀ s', Alive B false s' → End B s' := fun _ h => .manager h
  refine RefAt.bind (J := Alive B false) (RefAt.loadPlugins _ _ _ ho _ hs) ?_ hw
  intro _ s hs
  refine RefAt.bind (J := Alive B false) (RefAt.invokeReloadCallbacks _ ho.mid _ hs) ?_ hw
  intro _ s hs
  have hs0 := hs
  obtain ⟨i, g, hl⟩ := hs
  refine RefAt.self hl (RefAt.pget (RefAt.mget ?_))
  rw [show s.abs.pm = s.heap.view i g from by rw [hl.abs], buildDetails_eq]
  cases buildDetails s.heap g.pluginMap files .empty with
  | none => exact RefAt.panic _ (hw _ hs0)
  | some d =>
    refine RefAt.bind (J := Alive B false) (RefAt.publishNew ho hs0) ?_ hw
    intro _ s hs
    exact RefAt.pure _ (hw _ hs)

theorem RefAt.loadPluginsImpl {B : Start} (cfg : Config) (env : Env) (cbs : List (Nat × Outcome)) {old : Option Nat} (ho : OldOK B old) {s : PSt}
    (hi : Inv B s) (hm : s.me = none) (hh : s.heap = B.heap) (hq : ∀ pm, Act.publish pm ∉ s.acts) :
    RefAt (End B) (loadPluginsImpl cfg env cbs old) (Hotswap.loadPluginsImpl cfg env cbs (oldMgr B old)) s := by
  unfold Ptr.loadPluginsImpl Hotswap.loadPluginsImpl
  have hn : End B s := .nothing hi hm hh hq
  cases env.dir with
  | none => exact RefAt.throw _ hn
  | some d =>
    obtain ⟨absDir, entries⟩ := d
    dsimp only
    cases whitelistError cfg.whitelist (qualifying cfg.whitelist entries) with
    | some e => exact RefAt.throw _ hn
    | none => exact RefAt.loadPluginFiles cfg env cbs ho _ hi hm hh hq

theorem RefAt.loadStaticPlugins {B : Start} (cfg : Config) (env : Env) (cbs : List (Nat × Outcome)) (sps : GoMap StaticPlugin) {s : PSt}
    (hi : Inv B s) (hm : s.me = none) (hh : s.heap = B.heap) (hq : ∀ pm, Act.publish pm ∉ s.acts) :
    RefAt (End B) (loadStaticPlugins cfg env cbs sps) (Hotswap.loadStaticPlugins cfg env cbs sps) s := by
  unfold Ptr.loadStaticPlugins Hotswap.loadStaticPlugins
  refine RefAt.create cfg env hi hm hh hq ?_
  intro s hs
  have hw : ∀ s', Alive B false s' → End B s' := fun _ h => .manager h
  cases (if cfg.whitelist.isEmpty then Except.ok sps else selectStatic sps cfg.whitelist .empty) with
  | error e => exact RefAt.throw _ (hw _ hs.weaken)
  | ok sel =>
    dsimp only
    refine RefAt.bind (J := Alive B false) (RefAt.loadStatic _ _ _ hs) ?_ hw
    intro _ s hs
    refine RefAt.bind (J := Alive B false) (RefAt.invokeReloadCallbacks (old' := none) _ rfl _ hs) ?_ hw
    intro _ s hs
    have ho : OldOK B none := fun om h => by cases h
    refine RefAt.bind (J := Alive B false) (RefAt.publishNew ho hs) ?_ hw
    intro _ s hs
    exact RefAt.pure _ (hw _ hs)

theorem End.emit {B : Start} {s : PSt} (h : End B s) (a : Act) (ha : ∀ pm, a ≠ .publish pm) : End B (PM.emit a s).2 := by
  cases h with
  | nothing hi hm hh hq =>
    refine .nothing (hi.emit a) hm hh ?_
    intro pm h
    rcases List.mem_append.mp h with h | h
    · exact hq pm h
    · exact ha pm (List.mem_singleton.mp h).symm
  | manager h => exact .manager (h.emit a)

/-- Every call refines its plan. -/
theorem run_refines (cfg : Config) (env : Env) (k : Kind) {old : Option Nat} {next : Nat} {h : Heap} (ho : OldOK ⟨next, h⟩ old) :
    plan cfg env k (old.bind h.manager) next =
      { acts := (run cfg env k old next h).2.acts, res := (run cfg env k old next h).1, next := (run cfg env k old next h).2.next, built := (run cfg env k old next h).2.abs.pm } ∧
    End ⟨next, h⟩ (run cfg env k old next h).2 := by
  have hi : Inv ⟨next, h⟩ { next := next, heap := h, me := none, acts := [], writes := [] } := ⟨⟨[], by simp⟩, fun _ _ => rfl, Nat.le_refl _, fun w hw => by cases hw⟩
  have key : RefAt (End ⟨next, h⟩) (match k with | .load => apiLoad cfg env old | .reload extra => apiReload cfg env extra old)
      (match k with | .load => Hotswap.apiLoad cfg env (oldMgr ⟨next, h⟩ old) | .reload extra => Hotswap.apiReload cfg env extra (oldMgr ⟨next, h⟩ old))
      { next := next, heap := h, me := none, acts := [], writes := [] } := by
    cases k with
    | load =>
      dsimp only
      unfold Ptr.apiLoad Hotswap.apiLoad
      cases cfg.static with
      | some sps => exact RefAt.loadStaticPlugins cfg env _ sps hi rfl rfl (fun _ h => nomatch h)
      | none => exact RefAt.loadPluginsImpl cfg env _ ho hi rfl rfl (fun _ h => nomatch h)
    | reload extra =>
      dsimp only
      unfold Ptr.apiReload Hotswap.apiReload
      refine RefAt.bind (J := End ⟨next, h⟩) (RefAt.loadPluginsImpl cfg env _ ho hi rfl rfl (fun _ h => nomatch h)) ?_ (fun _ h => h)
      intro d s hs
      refine RefAt.bind (J := End ⟨next, h⟩) (RefAt.emit _ (hs.emit _ (fun _ h => nomatch h))) ?_ (fun _ h => h)
      intro _ s hs
      exact RefAt.pure _ hs
  obtain ⟨h1, h2⟩ := key
  refine ⟨?_, h2⟩
  cases k with
  | load =>
    have h1' : Hotswap.apiLoad cfg env (old.bind h.manager) { next := next, pm := noManager, acts := [] } = ((run cfg env .load old next h).1, (run cfg env .load old next h).2.abs) := h1
    unfold plan
    simp only [h1']
    rfl
  | reload extra =>
    have h1' : Hotswap.apiReload cfg env extra (old.bind h.manager) { next := next, pm := noManager, acts := [] } =
      ((run cfg env (.reload extra) old next h).1, (run cfg env (.reload extra) old next h).2.abs) := h1
    unfold plan
    simp only [h1']
    rfl

end

end Ptr
end Hotswap
