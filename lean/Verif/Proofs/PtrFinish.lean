import Verif.Proofs.PtrDeps

/-!
# The pointer level refines the model: hooks, vault, publication
-/

namespace Hotswap
namespace Ptr

section
variable [GoRuntime]

/-- From here on the plugin structs do not change. -/
def Fixed (B : Start) (c : List Plugin) (s : PSt) : Prop := Alive B false s ∧ s.heap.cells = c

theorem deref_cells {h h' : Heap} (he : h.cells = h'.cells) (r : Nat) : h.deref r = h'.deref r := by unfold Heap.deref; rw [he]

theorem Fixed.emit {B : Start} {c : List Plugin} {s : PSt} (h : Fixed B c s) (a : Act) : Fixed B c (PM.emit a s).2 := ⟨h.1.emit a, h.2⟩

theorem Fixed.alive {B : Start} {c : List Plugin} {s : PSt} (h : Fixed B c s) : Alive B false s := h.1

theorem RefAt.hook {J : PSt → Prop} {s : PSt} (o : Outcome) (n : Str) (hs : J s) :
    RefAt J (match o with | .ok => PM.pure () | .err => PM.throw (.hookErr n) | .panics => PM.throw (.hookPanic n) : PM Unit)
      (match o with | .ok => M.pure () | .err => M.throw (.hookErr n) | .panics => M.throw (.hookPanic n)) s := by
  cases o with
  | ok => exact RefAt.pure _ hs
  | err => exact RefAt.throw _ hs
  | panics => exact RefAt.throw _ hs

theorem RefAt.invokeEveryOnLoad {B : Start} (d : Nat) {s : PSt} (hs : Alive B false s) :
    RefAt (Alive B false) (invokeEveryOnLoad d) (Hotswap.invokeEveryOnLoad d) s := by
  have hf : Fixed B s.heap.cells s := ⟨hs, rfl⟩
  obtain ⟨i, g, hl⟩ := hs
  unfold Ptr.invokeEveryOnLoad Hotswap.invokeEveryOnLoad
  refine RefAt.self hl (RefAt.mget ?_)
  rw [show s.abs.pm.ordered = g.ordered.map s.heap.deref from by rw [hl.abs]; rfl]
  refine RefAt.mono (RefAt.forEach (J := Fixed B s.heap.cells) ?_ s hf) (fun _ h => h.alive)
  intro r hr s' hs'
  have hlt : r < s'.heap.cells.length := by rw [hs'.2]; exact (hl.range.ordered r hr).2
  refine RefAt.cell hlt ?_
  rw [deref_cells hs'.2 r]
  refine RefAt.ite (fun _ => RefAt.pure _ hs') (fun _ => ?_)
  refine RefAt.bind (J := Fixed B s.heap.cells) (RefAt.emit _ (hs'.emit _)) ?_ (fun _ h => h)
  intro _ s'' hs''
  exact RefAt.hook _ _ hs''

/-- An assignment to the vault. -/
theorem RefAt.setVault {B : Start} {c : List Plugin} {s : PSt} (hs : Fixed B c s) (v : Vault → Vault) :
    RefAt (Fixed B c) (PM.modSelf (fun x => { x with vault := v x.vault })) (M.modPm (fun pm => { pm with vault := v pm.vault })) s := by
  obtain ⟨⟨i, g, hl⟩, hc⟩ := hs
  have hl' : Live B false (PM.modSelf (fun x => { x with vault := v x.vault }) s).2 i { g with vault := v g.vault } :=
    hl.modSelf (fun x => { x with vault := v x.vault }) rfl hl.range.ordered (fun h => by cases h)
  refine ⟨?_, ⟨i, _, hl'⟩, ?_⟩
  · rw [hl.modSelf_abs _ hl', modSelf_ok hl, hl.abs]; rfl
  · rw [← hc]; unfold PM.modSelf; rw [hl.me]

theorem RefAt.invokeEveryOnInit {B : Start} {s : PSt} (hs : Alive B false s) :
    RefAt (Alive B false) invokeEveryOnInit Hotswap.invokeEveryOnInit s := by
  have hf : Fixed B s.heap.cells s := ⟨hs, rfl⟩
  obtain ⟨i, g, hl⟩ := hs
  unfold Ptr.invokeEveryOnInit Hotswap.invokeEveryOnInit
  refine RefAt.self hl (RefAt.mget ?_)
  rw [show s.abs.pm.ordered = g.ordered.map s.heap.deref from by rw [hl.abs]; rfl]
  refine RefAt.mono (RefAt.forEach (J := Fixed B s.heap.cells) ?_ s hf) (fun _ h => h.alive)
  intro r hr s' hs'
  have hlt : r < s'.heap.cells.length := by rw [hs'.2]; exact (hl.range.ordered r hr).2
  refine RefAt.cell hlt ?_
  rw [deref_cells hs'.2 r]
  refine RefAt.ite (fun _ => RefAt.pure _ hs') (fun _ => ?_)
  obtain ⟨i', g', hl'⟩ := hs'.1
  refine RefAt.pget (RefAt.self hl' (RefAt.mget ?_))
  rw [show s'.me.getD 0 = s'.abs.pm.mid from by rw [hl'.abs, hl'.me]; rfl, show g'.vault = s'.abs.pm.vault from by rw [hl'.abs]; rfl]
  refine RefAt.bind (J := Fixed B s.heap.cells) (RefAt.emit _ (hs'.emit _)) ?_ (fun _ h => h)
  intro _ s'' hs''
  refine RefAt.bind (J := Fixed B s.heap.cells) (RefAt.setVault hs'' (fun _ => ((s.heap.deref r).code.onInit s'.abs.pm.vault).2)) ?_ (fun _ h => h)
  intro _ s'' hs''
  exact RefAt.hook _ _ hs''

theorem RefAt.addLiveFuncs {B : Start} (it : Iter) {c : List Plugin} (before : List Nat) (p : Plugin) (m : GoMap Val) {h : Heap} (hc : h.cells = c) {s : PSt} (hs : Fixed B c s) :
    RefAt (Fixed B c) (addLiveFuncs it before p m) (Hotswap.addLiveFuncs it (before.map h.deref) p m) s := by
  unfold Ptr.addLiveFuncs Hotswap.addLiveFuncs
  rw [List.length_map]
  refine RefAt.forEach' ?_ s hs
  intro e _ s hs
  obtain ⟨i, g, hl⟩ := hs.1
  refine RefAt.self hl (RefAt.pget (RefAt.mget ?_))
  rw [show s.abs.pm.vault = g.vault from by rw [hl.abs]; rfl]
  cases g.vault.liveFuncs.get? e.1 with
  | none => exact RefAt.setVault hs (fun v => { v with liveFuncs := v.liveFuncs.insert e.1 e.2 })
  | some _ =>
    have : before.map h.deref = before.map s.heap.deref := List.map_congr_left (fun r _ => deref_cells (hc.trans hs.2.symm) r)
    rw [this]
    exact RefAt.throw _ hs

theorem RefAt.addLiveTypes {B : Start} (it : Iter) {c : List Plugin} (before : List Nat) (p : Plugin) (m : GoMap Val) {h : Heap} (hc : h.cells = c) {s : PSt} (hs : Fixed B c s) :
    RefAt (Fixed B c) (addLiveTypes it before p m) (Hotswap.addLiveTypes it (before.map h.deref) p m) s := by
  unfold Ptr.addLiveTypes Hotswap.addLiveTypes
  rw [List.length_map]
  refine RefAt.forEach' ?_ s hs
  intro e _ s hs
  obtain ⟨i, g, hl⟩ := hs.1
  refine RefAt.self hl (RefAt.pget (RefAt.mget ?_))
  rw [show s.abs.pm.vault = g.vault from by rw [hl.abs]; rfl]
  cases g.vault.liveTypes.get? e.1 with
  | none => exact RefAt.setVault hs (fun v => { v with liveTypes := v.liveTypes.insert e.1 e.2 })
  | some _ =>
    have : before.map h.deref = before.map s.heap.deref := List.map_congr_left (fun r _ => deref_cells (hc.trans hs.2.symm) r)
    rw [this]
    exact RefAt.throw _ hs

theorem RefAt.setupLiveFuncs {B : Start} (it : Iter) {c : List Plugin} {h : Heap} (hc : h.cells = c) : ∀ (l before : List Nat) {s : PSt}, (∀ r ∈ l, r < c.length) → Fixed B c s →
    RefAt (Fixed B c) (setupLiveFuncs it before l) (Hotswap.setupLiveFuncs it (before.map h.deref) (l.map h.deref)) s := by
  intro l
  induction l with
  | nil => intro before s _ hs; exact RefAt.pure _ hs
  | cons r rest ih =>
    intro before s hlt hs
    simp only [Ptr.setupLiveFuncs, Hotswap.setupLiveFuncs, List.map_cons]
    refine RefAt.cell (by rw [hs.2]; exact hlt r (by simp)) ?_
    rw [deref_cells (hs.2.trans hc.symm) r]
    refine RefAt.bind (J := Fixed B c) (RefAt.emit _ (hs.emit _)) ?_ (fun _ h => h)
    intro _ s hs
    cases (h.deref r).code.liveFuncs with
    | panics => exact RefAt.panic _ hs
    | ret o =>
      cases o with
      | none => exact RefAt.throw _ hs
      | some m =>
        refine RefAt.bind (J := Fixed B c) (RefAt.addLiveFuncs it before _ m hc hs) ?_ (fun _ h => h)
        intro _ s hs
        have := ih (before ++ [r]) (fun q hq => hlt q (List.mem_cons_of_mem _ hq)) hs
        rwa [List.map_append] at this

theorem RefAt.setupLiveTypes {B : Start} (it : Iter) {c : List Plugin} {h : Heap} (hc : h.cells = c) : ∀ (l before : List Nat) {s : PSt}, (∀ r ∈ l, r < c.length) → Fixed B c s →
    RefAt (Fixed B c) (setupLiveTypes it before l) (Hotswap.setupLiveTypes it (before.map h.deref) (l.map h.deref)) s := by
  intro l
  induction l with
  | nil => intro before s _ hs; exact RefAt.pure _ hs
  | cons r rest ih =>
    intro before s hlt hs
    simp only [Ptr.setupLiveTypes, Hotswap.setupLiveTypes, List.map_cons]
    refine RefAt.cell (by rw [hs.2]; exact hlt r (by simp)) ?_
    rw [deref_cells (hs.2.trans hc.symm) r]
    refine RefAt.bind (J := Fixed B c) (RefAt.emit _ (hs.emit _)) ?_ (fun _ h => h)
    intro _ s hs
    cases (h.deref r).code.liveTypes with
    | panics => exact RefAt.panic _ hs
    | ret o =>
      cases o with
      | none => exact RefAt.throw _ hs
      | some m =>
        refine RefAt.bind (J := Fixed B c) (RefAt.addLiveTypes it before _ m hc hs) ?_ (fun _ h => h)
        intro _ s hs
        have := ih (before ++ [r]) (fun q hq => hlt q (List.mem_cons_of_mem _ hq)) hs
        rwa [List.map_append] at this

theorem RefAt.setupVault {B : Start} (it : Iter) {s : PSt} (hs : Alive B false s) : RefAt (Alive B false) (setupVault it) (Hotswap.setupVault it) s := by
  have hf : Fixed B s.heap.cells s := ⟨hs, rfl⟩
  obtain ⟨i, g, hl⟩ := hs
  unfold Ptr.setupVault Hotswap.setupVault
  refine RefAt.self hl (RefAt.mget ?_)
  rw [show s.abs.pm.ordered = g.ordered.map s.heap.deref from by rw [hl.abs]; rfl]
  have hlt : ∀ r ∈ g.ordered, r < s.heap.cells.length := fun r hr => (hl.range.ordered r hr).2
  refine RefAt.bind (J := Fixed B s.heap.cells) (RefAt.setupLiveFuncs it (h := s.heap) rfl g.ordered [] hlt hf) ?_ (fun _ h => h.alive)
  intro _ s' hs'
  exact RefAt.mono (RefAt.setupLiveTypes it (h := s.heap) rfl g.ordered [] hlt hs') (fun _ h => h.alive)

theorem RefAt.finishLoad {B : Start} (it : Iter) (d : Nat) {s : PSt} (hs : Alive B true s) : RefAt (Alive B false) (finishLoad it d) (Hotswap.finishLoad it d) s := by
  unfold Ptr.finishLoad Hotswap.finishLoad
  refine RefAt.bind (J := Alive B false) (RefAt.initDeps it hs) ?_ (fun _ h => h)
  intro _ s hs
  refine RefAt.bind (J := Alive B false) (RefAt.invokeEveryOnLoad d hs) ?_ (fun _ h => h)
  intro _ s hs
  refine RefAt.bind (J := Alive B false) (RefAt.setupVault it hs) ?_ (fun _ h => h)
  intro _ s hs
  exact RefAt.invokeEveryOnInit hs

/-! ### Freeing -/

theorem freeOrder_eq (it : Iter) (h : Heap) (i : Nat) (g : PMgr) : Hotswap.freeOrder it (h.view i g) = (freeOrder it g).map h.deref := by
  unfold Hotswap.freeOrder freeOrder Heap.view
  by_cases ho : g.ordered = []
  · simp only [ho, List.map_nil, if_true, GoMap.rangeKV_mapV, List.map_map, Function.comp_def]
  · simp [ho]

theorem RefAt.invokeEveryOnFree {B : Start} (it : Iter) {s : PSt} (hs : Alive B false s) : RefAt (Alive B false) (invokeEveryOnFree it) (Hotswap.invokeEveryOnFree it) s := by
  obtain ⟨i, g, hl⟩ := hs
  have hx : Ptr.invokeEveryOnFree it s = (.ok (), { s with acts := s.acts ++ (freeOrder it g).map (fun r => .release (s.heap.deref r).inst) }) := by
    unfold Ptr.invokeEveryOnFree
    simp only [hl.me, Option.bind_some, hl.mgr]
  have hl' : Live B false { s with acts := s.acts ++ (freeOrder it g).map (fun r => .release (s.heap.deref r).inst) } i g :=
    { cells := hl.cells, mgrs := hl.mgrs, next := hl.next, writes := hl.writes, me := hl.me, mgr := hl.mgr, mine := hl.mine, taken := hl.taken, others := hl.others, range := hl.range, keyed := hl.keyed, unordered := hl.unordered }
  refine ⟨?_, ?_⟩
  · rw [hx, hl'.abs, hl.abs]
    unfold Hotswap.invokeEveryOnFree
    simp only [freeOrder_eq, List.map_map, Function.comp_def]
  · rw [hx]; exact ⟨i, g, hl'⟩

theorem RefAt.withCleanup {B : Start} (it : Iter) {x : PM Unit} {y : M Unit} {s : PSt} (h : RefAt (Alive B false) x y s) : RefAt (Alive B false) (withCleanup it x) (Hotswap.withCleanup it y) s := by
  obtain ⟨h1, h2⟩ := h
  unfold RefAt Ptr.withCleanup Hotswap.withCleanup
  rw [h1]
  revert h2
  rcases x s with ⟨r, s'⟩
  intro h2
  cases r with
  | ok a => exact ⟨rfl, h2⟩
  | err e =>
    obtain ⟨h3, h4⟩ := RefAt.invokeEveryOnFree it h2
    refine ⟨?_, h4⟩
    simp only [h3]
  | panic p =>
    obtain ⟨h3, h4⟩ := RefAt.invokeEveryOnFree it h2
    refine ⟨?_, h4⟩
    simp only [h3]

theorem RefAt.loadPlugins {B : Start} (it : Iter) (fs : FS) (files : List Str) {old : Option Nat} (ho : OldOK B old) (d : Nat) {s : PSt} (hs : Alive B true s) :
    RefAt (Alive B false) (loadPlugins it fs files old d) (Hotswap.loadPlugins it fs files (oldMgr B old) d) s := by
  refine RefAt.withCleanup it ?_
  have hw : ∀ s', Alive B true s' → Alive B false s' := fun _ h => h.weaken
  have hs0 := hs
  obtain ⟨i, g, hl⟩ := hs
  unfold Ptr.loadPluginsBody Hotswap.loadPluginsBody
  refine RefAt.self hl (RefAt.mget ?_)
  rw [show s.abs.pm.pluginMap.size = g.pluginMap.size from by rw [hl.abs]; exact GoMap.size_mapV _ _]
  refine RefAt.ite (fun _ => ⟨rfl, hw _ hs0⟩) (fun _ => ?_)
  cases findDuplicate it files with
  | some k => exact RefAt.throw _ (hw _ hs0)
  | none =>
    dsimp only
    cases buildFileInfoMap fs files .empty with
    | error e => exact RefAt.throw _ (hw _ hs0)
    | ok im =>
      dsimp only
      refine RefAt.pget ?_
      have e1 : (fun (k : Str) (_ : FileInfo) => isNotReloadable s.heap old k) = fun k _ => Hotswap.isNotReloadable (oldMgr B old) k :=
        funext fun k => funext fun _ => isNotReloadable_eq hl.toInv ho k
      have e2 : (fun (k : Str) (_ : FileInfo) => !isNotReloadable s.heap old k) = fun k _ => !Hotswap.isNotReloadable (oldMgr B old) k :=
        funext fun k => funext fun _ => by rw [isNotReloadable_eq hl.toInv ho k]
      rw [e1, e2]
      refine RefAt.bind (J := Alive B true) (RefAt.keepPlugins ho _ _ hs0) ?_ hw
      intro _ s hs
      refine RefAt.pget ?_
      have e1 : (fun (k : Str) (info : FileInfo) => isUnchanged s.heap old k info) = fun k info => Hotswap.isUnchanged (oldMgr B old) k info :=
        funext fun k => funext fun _ => isUnchanged_eq hs.inv ho k _
      have e2 : (fun (k : Str) (info : FileInfo) => !isUnchanged s.heap old k info) = fun k info => !Hotswap.isUnchanged (oldMgr B old) k info :=
        funext fun k => funext fun _ => by rw [isUnchanged_eq hs.inv ho k]
      rw [e1, e2]
      refine RefAt.bind (J := Alive B true) (RefAt.keepPlugins ho _ _ hs) ?_ hw
      intro _ s hs
      have hs0 := hs
      obtain ⟨i, g, hl⟩ := hs
      refine RefAt.self hl (RefAt.mget ?_)
      rw [show s.abs.pm.pluginMap.size = g.pluginMap.size from by rw [hl.abs]; exact GoMap.size_mapV _ _]
      refine RefAt.ite (fun _ => ⟨rfl, hw _ hs0⟩) (fun _ => ?_)
      refine RefAt.bind (J := Alive B true) (RefAt.outputStats1 hs0) ?_ hw
      intro _ s hs
      refine RefAt.bind (J := Alive B true) (RefAt.loadNew it fs _ hs) ?_ hw
      intro _ s hs
      exact RefAt.finishLoad it d hs

theorem RefAt.loadStatic {B : Start} (it : Iter) (sps : GoMap StaticPlugin) (d : Nat) {s : PSt} (hs : Alive B true s) :
    RefAt (Alive B false) (loadStatic it sps d) (Hotswap.loadStatic it sps d) s := by
  refine RefAt.withCleanup it ?_
  have hw : ∀ s', Alive B true s' → Alive B false s' := fun _ h => h.weaken
  have hs0 := hs
  obtain ⟨i, g, hl⟩ := hs
  unfold Ptr.loadStaticBody Hotswap.loadStaticBody
  refine RefAt.self hl (RefAt.mget ?_)
  rw [show s.abs.pm.pluginMap.size = g.pluginMap.size from by rw [hl.abs]; exact GoMap.size_mapV _ _]
  refine RefAt.ite (fun _ => ⟨rfl, hw _ hs0⟩) (fun _ => ?_)
  refine RefAt.bind (J := Alive B true) (RefAt.loadStaticNew it sps hs0) ?_ hw
  intro _ s hs
  exact RefAt.finishLoad it d hs

end

end Ptr
end Hotswap
