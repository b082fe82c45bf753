import Verif.Proofs.PtrBase

/-!
# The pointer level refines the model: up to the order of the plugins
-/

namespace Hotswap
namespace Ptr

section
variable [GoRuntime]

/-- The old manager, if there is one, existed when the call began. -/
def OldOK (B : Start) (old : Option Nat) : Prop := ∀ om, old = some om → om < B.next ∧ ∃ g, B.heap.mgrs om = some g ∧ InRange 0 B.heap.cells.length g

/-- What the old manager was when the call began. -/
def oldMgr (B : Start) (old : Option Nat) : Option Manager := old.bind B.heap.manager

omit [GoRuntime] in
theorem Inv.deref {B : Start} {s : PSt} (h : Inv B s) {r : Nat} (hr : r < B.heap.cells.length) : s.heap.deref r = B.heap.deref r := by
  obtain ⟨t, ht⟩ := h.cells
  unfold Heap.deref
  rw [ht, List.getElem?_append_left hr]

omit [GoRuntime] in
theorem Inv.lt {B : Start} {s : PSt} (h : Inv B s) {r : Nat} (hr : r < B.heap.cells.length) : r < s.heap.cells.length := by
  obtain ⟨t, ht⟩ := h.cells
  rw [ht, List.length_append]; omega

omit [GoRuntime] in
theorem OldOK.view {B : Start} {om : Nat} (h : OldOK B (some om)) : ∃ g, B.heap.mgrs om = some g ∧ InRange 0 B.heap.cells.length g ∧ oldMgr B (some om) = some (B.heap.view om g) := by
  obtain ⟨-, g, hg, hr⟩ := h om rfl
  exact ⟨g, hg, hr, Heap.manager_some hg⟩

omit [GoRuntime] in
theorem OldOK.get {B : Start} {s : PSt} (hi : Inv B s) {om : Nat} (h : OldOK B (some om)) : s.heap.mgrs om = B.heap.mgrs om := hi.mgrs om (h om rfl).1

theorem RefAt.addUnchanged {B : Start} {s : PSt} (hs : Alive B true s) {r : Nat} (hr : r < B.heap.cells.length) (note : Note) :
    RefAt (Alive B true) (addUnchanged r note) (Hotswap.addUnchanged (B.heap.deref r) note) s := by
  obtain ⟨i, g, hl⟩ := hs
  have hd := hl.toInv.deref hr
  have hlt := hl.toInv.lt hr
  have hl' := hl.emit (.inc (B.heap.deref r).inst)
  have hw : ∀ x ∈ [Wr.plugin s.heap.cells.length, Wr.plugin s.heap.cells.length, Wr.plugin s.heap.cells.length, Wr.manager i], x.Fresh B := by
    obtain ⟨t, ht⟩ := hl.cells
    intro x hx
    simp only [List.mem_cons, List.not_mem_nil, or_false] at hx
    rcases hx with rfl | rfl | rfl | rfl
    · simp [Wr.Fresh, ht]
    · simp [Wr.Fresh, ht]
    · simp [Wr.Fresh, ht]
    · exact hl.mine
  have hx : Ptr.addUnchanged r note s = (.ok (), enterSt (PM.emit (.inc (B.heap.deref r).inst) s).2 i { B.heap.deref r with unchanged := true, note := note }
      [Wr.plugin s.heap.cells.length, Wr.plugin s.heap.cells.length, Wr.plugin s.heap.cells.length, Wr.manager i]) := by
    unfold Ptr.addUnchanged
    change PM.bind _ _ s = _
    unfold PM.bind
    rw [cell_ok hlt, hd]
    have hm : ∀ (f : Plugin → Plugin) (p : Plugin), (s.heap.cells ++ [p]).modify s.heap.cells.length f = s.heap.cells ++ [f p] := by
      intro f p
      apply List.ext_getElem?
      intro n
      simp only [List.getElem?_modify, List.getElem?_append]
      by_cases h1 : n < s.heap.cells.length
      · have h2 : ¬ s.heap.cells.length = n := by omega
        simp [h1, h2]
      · by_cases h2 : s.heap.cells.length = n
        · subst h2; simp
        · have h3 : n - s.heap.cells.length ≠ 0 := by omega
          simp [h1, h2, h3]
    change PM.bind (PM.new _) _ s = _
    unfold PM.bind PM.new
    change PM.bind (PM.write _ _) _ _ = _
    unfold PM.bind PM.write
    simp only [hm]
    change PM.bind (PM.write _ _) _ _ = _
    unfold PM.bind PM.write
    simp only [hm]
    change PM.bind (PM.emit _) _ _ = _
    unfold PM.bind PM.emit
    simp [setPlugin, PM.modSelf, hl.me, enterSt]
  refine ⟨?_, ?_⟩
  · rw [hx, hl'.entered_abs _ _ hw]; rfl
  · rw [hx]; exact ⟨i, _, hl'.entered _ hw⟩

theorem isNotReloadable_eq {B : Start} {s : PSt} (hi : Inv B s) {old : Option Nat} (ho : OldOK B old) (k : Str) :
    isNotReloadable s.heap old k = Hotswap.isNotReloadable (oldMgr B old) k := by
  cases old with
  | none => rfl
  | some om =>
    obtain ⟨g, hg, hr, he⟩ := ho.view
    unfold isNotReloadable Hotswap.isNotReloadable
    rw [he]
    simp only [Option.bind_some, ho.get hi, hg, Heap.view, GoMap.get?_mapV]
    cases hk : g.pluginMap.get? k with
    | none => rfl
    | some r => simp [hi.deref (hr.vals k r hk).2]

theorem isUnchanged_eq {B : Start} {s : PSt} (hi : Inv B s) {old : Option Nat} (ho : OldOK B old) (k : Str) (info : FileInfo) :
    isUnchanged s.heap old k info = Hotswap.isUnchanged (oldMgr B old) k info := by
  cases old with
  | none => rfl
  | some om =>
    obtain ⟨g, hg, hr, he⟩ := ho.view
    unfold isUnchanged Hotswap.isUnchanged
    rw [he]
    simp only [Option.bind_some, ho.get hi, hg, Heap.view, GoMap.get?_mapV]
    cases hk : g.pluginMap.get? k with
    | none => rfl
    | some r => simp [hi.deref (hr.vals k r hk).2]

theorem RefAt.keepPlugins {B : Start} {old : Option Nat} (ho : OldOK B old) (note : Note) (ks : List Str) {s : PSt} (hs : Alive B true s) :
    RefAt (Alive B true) (keepPlugins old note ks) (Hotswap.keepPlugins (oldMgr B old) note ks) s := by
  unfold Ptr.keepPlugins Hotswap.keepPlugins
  refine RefAt.forEach' ?_ s hs
  intro k _ s hs
  cases old with
  | none => exact RefAt.panic _ hs
  | some om =>
    obtain ⟨g, hg, hr, he⟩ := ho.view
    rw [he]
    have hm : PM.mgr om s = (.ok g, s) := by unfold PM.mgr; rw [ho.get hs.inv, hg]
    refine RefAt.skip (J := fun _ => True) hm rfl trivial (fun _ => ?_)
    simp only [Heap.view, GoMap.get?_mapV]
    cases hk : g.pluginMap.get? k with
    | none => exact RefAt.panic _ hs
    | some r => exact RefAt.addUnchanged hs (hr.vals k r hk).2 note

theorem RefAt.outputStats1 {B : Start} {s : PSt} (hs : Alive B true s) : RefAt (Alive B true) outputStats1 Hotswap.outputStats1 s := by
  obtain ⟨i, g, hl⟩ := hs
  unfold Ptr.outputStats1 Hotswap.outputStats1
  refine RefAt.self hl (RefAt.pget (RefAt.mget ?_))
  have : (s.abs.pm.pluginMap.vals.all fun p => p.note == .notReloadable || p.note == .unchanged) =
      (g.pluginMap.vals.all fun p => (s.heap.deref p).note == .notReloadable || (s.heap.deref p).note == .unchanged) := by
    rw [hl.abs]
    simp [Heap.view, List.all_map, Function.comp_def]
  rw [this]
  exact RefAt.ite (fun _ => RefAt.pure _ ⟨i, g, hl⟩) (fun _ => RefAt.panic _ ⟨i, g, hl⟩)

theorem RefAt.enter_then {α : Type} {B : Start} {s : PSt} (hs : Alive B true s) (p : Plugin) {f : Unit → PM α} {f' : Unit → M α} {K : PSt → Prop}
    (hf : ∀ s', Alive B true s' → RefAt K (f ()) (f' ()) s') (hw : ∀ s', Alive B true s' → K s') :
    RefAt K (PM.new p >>= fun r => setPlugin (name2key p.name) r >>= f) (Hotswap.setPlugin (name2key p.name) p >>= f') s := by
  have h := RefAt.bind (K := K) (f := f) (f' := f') (RefAt.enter hs p) (fun _ => hf) hw
  have e : ((PM.new p >>= fun r => setPlugin (name2key p.name) r) >>= f) s = (PM.new p >>= fun r => setPlugin (name2key p.name) r >>= f) s := rfl
  unfold RefAt at h ⊢
  rw [← e]
  exact h

theorem RefAt.loadPlugin {B : Start} (fs : FS) (info : FileInfo) {s : PSt} (hs : Alive B true s) : RefAt (Alive B true) (loadPlugin fs info) (Hotswap.loadPlugin fs info) s := by
  unfold Ptr.loadPlugin Hotswap.loadPlugin
  have hj : ∀ s', Alive B true s' → Alive B true s' := fun _ h => h
  refine RefAt.ite (fun _ => ⟨rfl, hs⟩) (fun _ => ?_)
  refine RefAt.bind (J := Alive B true) (RefAt.alloc hs.alloc) ?_ hj
  intro i s hs
  refine RefAt.bind (J := Alive B true) (RefAt.emit _ (hs.emit _)) ?_ hj
  intro _ s hs
  cases fs.openPlugin info.file with
  | err => exact RefAt.throw _ hs
  | panics => exact RefAt.panic _ hs
  | image syms code =>
    dsimp only
    cases lookupAll syms pluginFuncItems with
    | error sym => exact RefAt.throw _ hs
    | ok l =>
      cases l with
      | cons m ms => exact RefAt.throw _ hs
      | nil =>
        dsimp only
        refine RefAt.bind (J := Alive B true) (RefAt.emit _ (hs.emit _)) ?_ hj
        intro _ s hs
        refine RefAt.bind (J := Alive B true) (RefAt.invokeRet _ _ hs) ?_ hj
        intro reloadable s hs
        refine RefAt.bind (J := Alive B true) (RefAt.emit _ (hs.emit _)) ?_ hj
        intro _ s hs
        refine RefAt.bind (J := Alive B true) (RefAt.invokeRet _ _ hs) ?_ hj
        intro exported s hs
        exact RefAt.enter_then hs { inst := i, name := info.name, file := info.file, sha := info.sha, note := .none, unchanged := false, syms := some syms, code := code, deps := [], exported := exported, reloadable := reloadable, bound := [] }
          (fun s' hs' => RefAt.emit _ (hs'.emit _)) hj

theorem RefAt.loadStaticPlugin {B : Start} (sp : StaticPlugin) {s : PSt} (hs : Alive B true s) : RefAt (Alive B true) (loadStaticPlugin sp) (Hotswap.loadStaticPlugin sp) s := by
  unfold Ptr.loadStaticPlugin Hotswap.loadStaticPlugin
  have hj : ∀ s', Alive B true s' → Alive B true s' := fun _ h => h
  refine RefAt.bind (J := Alive B true) (RefAt.alloc hs.alloc) ?_ hj
  intro i s hs
  cases staticMissing sp with
  | cons m ms => exact RefAt.throw _ hs
  | nil =>
    dsimp only
    refine RefAt.bind (J := Alive B true) (RefAt.emit _ (hs.emit _)) ?_ hj
    intro _ s hs
    refine RefAt.bind (J := Alive B true) (RefAt.invokeRet _ _ hs) ?_ hj
    intro reloadable s hs
    refine RefAt.bind (J := Alive B true) (RefAt.emit _ (hs.emit _)) ?_ hj
    intro _ s hs
    refine RefAt.bind (J := Alive B true) (RefAt.invokeRet _ _ hs) ?_ hj
    intro exported s hs
    exact RefAt.enter_then hs { inst := i, name := sp.name, file := [], sha := 0, note := .ok, unchanged := false, syms := none, code := sp.code, deps := [], exported := exported, reloadable := reloadable, bound := [] }
      (fun s' hs' => RefAt.emit _ (hs'.emit _)) hj

theorem RefAt.wrapLoading {J : PSt → Prop} {s : PSt} (name : Str) {x : PM Unit} {y : M Unit} (h : RefAt J x y s) : RefAt J (wrapLoading name x) (Hotswap.wrapLoading name y) s := by
  obtain ⟨h1, h2⟩ := h
  unfold RefAt Ptr.wrapLoading Hotswap.wrapLoading
  rw [h1]
  revert h2
  rcases x s with ⟨r, s'⟩
  intro h2
  cases r <;> exact ⟨rfl, h2⟩

theorem RefAt.tagPanic {J : PSt → Prop} {s : PSt} (c : Option Str) {x : PM Unit} {y : M Unit} (h : RefAt J x y s) : RefAt J (tagPanic c x) (Hotswap.tagPanic c y) s := by
  obtain ⟨h1, h2⟩ := h
  unfold RefAt Ptr.tagPanic Hotswap.tagPanic
  rw [h1]
  revert h2
  rcases x s with ⟨r, s'⟩
  intro h2
  cases r <;> exact ⟨rfl, h2⟩

theorem RefAt.loadNew {B : Start} (it : Iter) (fs : FS) (infoMap : GoMap FileInfo) {s : PSt} (hs : Alive B true s) :
    RefAt (Alive B true) (loadNew it fs infoMap) (Hotswap.loadNew it fs infoMap) s := by
  unfold Ptr.loadNew Hotswap.loadNew
  refine RefAt.forEach' ?_ s hs
  intro name _ s hs
  cases infoMap.get? name with
  | none => exact RefAt.tagPanic _ (RefAt.panic _ hs)
  | some info => exact RefAt.tagPanic _ (RefAt.wrapLoading _ (RefAt.loadPlugin fs info hs))

theorem RefAt.loadStaticNew {B : Start} (it : Iter) (sps : GoMap StaticPlugin) {s : PSt} (hs : Alive B true s) :
    RefAt (Alive B true) (loadStaticNew it sps) (Hotswap.loadStaticNew it sps) s := by
  unfold Ptr.loadStaticNew Hotswap.loadStaticNew
  refine RefAt.forEach' ?_ s hs
  intro name _ s hs
  cases sps.get? name with
  | none => exact RefAt.tagPanic _ (RefAt.panic _ hs)
  | some sp => exact RefAt.tagPanic _ (RefAt.wrapLoading _ (RefAt.loadStaticPlugin sp hs))

end

end Ptr
end Hotswap
