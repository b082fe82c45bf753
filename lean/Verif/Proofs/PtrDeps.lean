import Verif.Proofs.PtrLoad

/-!
# The pointer level refines the model: dependencies and order
-/

namespace Hotswap
namespace Ptr

section
variable [GoRuntime]

/-! ### Assignments to a plugin of the manager under construction -/

/-- Inside a manager, pointers and keys correspond one to one. -/
theorem Live.inj {B : Start} {o : Bool} {s : PSt} {i : Nat} {g : PMgr} (hl : Live B o s i g) {k k' : Str} {r : Nat} (h : g.pluginMap.get? k = some r) (h' : g.pluginMap.get? k' = some r) : k = k' := by
  rw [← hl.keyed k r h, ← hl.keyed k' r h']

theorem write_deref {s : PSt} {r q : Nat} (f : Plugin → Plugin) (hr : r < s.heap.cells.length) :
    (PM.write r f s).2.heap.deref q = if q = r then f (s.heap.deref r) else s.heap.deref q := deref_write hr

theorem Live.write {B : Start} {s : PSt} {i : Nat} {g : PMgr} (hl : Live B true s i g) {k : Str} {r : Nat} (hk : g.pluginMap.get? k = some r) {f : Plugin → Plugin}
    (hf : (f (s.heap.deref r)).name = (s.heap.deref r).name) : Live B true (PM.write r f s).2 i g where
  cells := by
    obtain ⟨t, ht⟩ := hl.cells
    have hr := (hl.range.vals k r hk).1
    refine ⟨t.modify (r - B.heap.cells.length) f, ?_⟩
    simp only [PM.write, ht]
    apply List.ext_getElem?
    intro n
    simp only [List.getElem?_modify, List.getElem?_append]
    by_cases h1 : n < B.heap.cells.length
    · have h2 : ¬ r = n := by omega
      simp [h1, h2]
    · have h3 : (r = n) ↔ (r - B.heap.cells.length = n - B.heap.cells.length) := by omega
      simp [h1, h3]
  mgrs := hl.mgrs
  next := hl.next
  writes := by
    intro x hx
    rcases List.mem_append.mp hx with h | h
    · exact hl.writes x h
    · rw [List.mem_singleton.mp h]; exact (hl.range.vals k r hk).1
  me := hl.me
  mgr := hl.mgr
  mine := hl.mine
  taken := hl.taken
  others := hl.others
  range := by
    have : (PM.write r f s).2.heap.cells.length = s.heap.cells.length := by simp [PM.write]
    rw [this]; exact hl.range
  keyed := by
    intro k' r' hk'
    rw [write_deref f (hl.range.vals k r hk).2]
    split
    · rename_i he
      subst he
      rw [hf]; exact hl.keyed k' r' hk'
    · exact hl.keyed k' r' hk'
  unordered := hl.unordered

theorem Live.write_abs {B : Start} {s : PSt} {i : Nat} {g : PMgr} (hl : Live B true s i g) {k : Str} {r : Nat} (hk : g.pluginMap.get? k = some r) {f : Plugin → Plugin}
    (hf : (f (s.heap.deref r)).name = (s.heap.deref r).name) :
    (PM.write r f s).2.abs = { s.abs with pm := { s.abs.pm with pluginMap := s.abs.pm.pluginMap.modify k f } } := by
  rw [(hl.write hk hf).abs, hl.abs]
  have hm : g.pluginMap.mapV (PM.write r f s).2.heap.deref = (g.pluginMap.mapV s.heap.deref).modify k f := by
    apply GoMap.ext
    simp only [GoMap.mapV, GoMap.modify, List.map_map]
    refine List.map_congr_left ?_
    intro e he
    have hge := GoMap.get?_eq_some.mpr he
    simp only [Function.comp_def]
    rw [write_deref f (hl.range.vals k r hk).2]
    by_cases h : e.1 = k
    · have : e.2 = r := by rw [h, hk] at hge; cases hge; rfl
      rw [if_pos this, if_pos h, this]
    · have : e.2 ≠ r := fun h' => h (hl.inj (h' ▸ hge) hk)
      rw [if_neg this, if_neg h]
  simp only [Heap.view, hm, hl.unordered rfl, List.map_nil]
  rfl

/-! ### Imports -/

/-- The invariant of the loop over the fields. -/
def Importing (B : Start) (k : Str) (r : Nat) (p : Plugin) (s : PSt) : Prop :=
  ∃ i g, Live B true s i g ∧ g.pluginMap.get? k = some r ∧ (s.heap.deref r).name = p.name ∧ (s.heap.deref r).reloadable = p.reloadable

theorem RefAt.addDep {B : Start} {k : Str} {r : Nat} {p : Plugin} {s : PSt} (hs : Importing B k r p s) (dep : Plugin) (f : Field) (v : Option Val) :
    RefAt (Importing B k r p) (addDep r dep f v) (Hotswap.addDep k dep f v) s := by
  obtain ⟨i, g, hl, hk, hn, hre⟩ := hs
  have hrl := (hl.range.vals k r hk).2
  unfold Ptr.addDep Hotswap.addDep
  refine ⟨?_, i, g, hl.write hk rfl, hk, ?_, ?_⟩
  · rw [hl.write_abs hk rfl]; rfl
  · rw [write_deref _ hrl, if_pos rfl]; exact hn
  · rw [write_deref _ hrl, if_pos rfl]; exact hre

theorem RefAt.bindField {B : Start} {k : Str} {r : Nat} {p : Plugin} (f : Field) {s : PSt} (hs : Importing B k r p s) :
    RefAt (Importing B k r p) (bindField r f) (Hotswap.bindField k p f) s := by
  have hs0 := hs
  obtain ⟨i, g, hl, hk, hn, hre⟩ := hs
  unfold Ptr.bindField Hotswap.bindField
  refine RefAt.ite (fun _ => RefAt.pure _ hs0) (fun _ => ?_)
  refine RefAt.cell (hl.range.vals k r hk).2 ?_
  rw [hn, hre]
  refine RefAt.ite (fun _ => RefAt.throw _ hs0) (fun _ => RefAt.self hl (RefAt.mget ?_))
  rw [hl.abs]
  simp only [Heap.view, GoMap.get?_mapV]
  cases hq : g.pluginMap.get? (name2key f.name) with
  | none => exact RefAt.throw _ hs0
  | some q =>
    refine RefAt.cell (hl.range.vals _ q hq).2 ?_
    simp only [Option.map_some]
    refine RefAt.ite (fun _ => RefAt.throw _ hs0) (fun _ => RefAt.ite (fun _ => RefAt.addDep hs0 _ _ _) (fun _ => ?_))
    cases (s.heap.deref q).exported with
    | none => exact RefAt.addDep hs0 _ _ _
    | some v => exact RefAt.ite (fun _ => RefAt.throw _ hs0) (fun _ => RefAt.ite (fun _ => RefAt.panic _ hs0) (fun _ => RefAt.addDep hs0 _ _ _))

theorem RefAt.importPlugin {B : Start} (k : Str) {s : PSt} (hs : Alive B true s) : RefAt (Alive B true) (importPlugin k) (Hotswap.importPlugin k) s := by
  have hs0 := hs
  obtain ⟨i, g, hl⟩ := hs
  unfold Ptr.importPlugin Hotswap.importPlugin
  refine RefAt.self hl (RefAt.mget ?_)
  rw [show s.abs.pm.pluginMap = g.pluginMap.mapV s.heap.deref from by rw [hl.abs]; rfl]
  simp only [GoMap.get?_mapV]
  cases hk : g.pluginMap.get? k with
  | none => exact RefAt.panic _ hs0
  | some r =>
    refine RefAt.cell (hl.range.vals _ r hk).2 ?_
    simp only [Option.map_some]
    refine RefAt.ite (fun _ => RefAt.pure _ hs0) (fun _ => ?_)
    have hw : ∀ s', Importing B k r (s.heap.deref r) s' → Alive B true s' := by
      rintro s' ⟨i, g, h, -⟩
      exact ⟨i, g, h⟩
    have hi0 : Importing B k r (s.heap.deref r) s := ⟨i, g, hl, hk, rfl, rfl⟩
    refine RefAt.bind (J := Importing B k r (s.heap.deref r)) (RefAt.emit _ ⟨i, g, hl.emit _, hk, rfl, rfl⟩) ?_ hw
    intro _ s' hs'
    refine RefAt.bind (J := Importing B k r (s.heap.deref r)) (RefAt.invokeRet _ _ hs') ?_ hw
    intro imp s' hs'
    cases imp.val with
    | none => exact RefAt.pure _ (hw _ hs')
    | some v =>
      refine RefAt.ite (fun _ => RefAt.pure _ (hw _ hs')) (fun _ => RefAt.ite (fun _ => RefAt.throw _ (hw _ hs')) (fun _ => ?_))
      exact RefAt.mono (RefAt.forEach' (J := Importing B k r (s.heap.deref r)) (fun f _ s hs => RefAt.bindField f hs) s' hs') hw

/-! ### The cycle check -/

/-- A list of pointers of the manager and the list of their keys. -/
theorem contains_keys {h : Heap} {m : GoMap Nat} (hk : ∀ k r, m.get? k = some r → name2key (h.deref r).name = k) {r : Nat} {k : Str} (hr : m.get? k = some r) :
    ∀ {l : List Nat}, (∀ q ∈ l, ∃ k, m.get? k = some q) → (l.map (fun q => name2key (h.deref q).name)).contains (name2key (h.deref r).name) = l.contains r := by
  intro l hl
  rw [Bool.eq_iff_iff]
  simp only [List.contains_iff_mem, List.mem_map]
  constructor
  · rintro ⟨q, hq, he⟩
    obtain ⟨k', hk'⟩ := hl q hq
    rw [hk _ _ hk', hk _ _ hr] at he
    subst he
    rw [hr] at hk'; cases hk'; exact hq
  · intro hm
    exact ⟨r, hm, rfl⟩

theorem checkCyclic_eq {h : Heap} {m : GoMap Nat} (hk : ∀ k r, m.get? k = some r → name2key (h.deref r).name = k) :
    ∀ (n : Nat) (p : Option Nat) (visited : List Nat), (∀ r, p = some r → ∃ k, m.get? k = some r) → (∀ q ∈ visited, ∃ k, m.get? k = some q) →
      Hotswap.checkCyclic (m.mapV h.deref) n (p.map h.deref) (visited.map (fun q => name2key (h.deref q).name)) = checkCyclic h m n p visited := by
  intro n
  induction n with
  | zero => intro p visited _ _; rfl
  | succ n ih =>
    intro p visited hp hv
    cases p with
    | none => rfl
    | some r =>
      obtain ⟨k, hr⟩ := hp r rfl
      simp only [Option.map_some, Hotswap.checkCyclic, checkCyclic, contains_keys hk hr hv]
      congr 3
      apply List.map_congr_left
      intro d _
      rw [GoMap.get?_mapV]
      refine ih (m.get? (name2key d)) (r :: visited) (fun q hq => ⟨_, hq⟩) ?_
      intro q hq
      rcases List.mem_cons.mp hq with rfl | hq
      · exact ⟨k, hr⟩
      · exact hv q hq

theorem mem_rangeKV_get {α : Type} {m : GoMap α} {it : Iter} {s : Site} {e : Str × α} (h : e ∈ m.rangeKV it s) : m.get? e.1 = some e.2 := GoMap.mem_rangeKV.mp h

theorem RefAt.checkAllCyclic {B : Start} (it : Iter) {s : PSt} (hs : Alive B true s) : RefAt (Alive B true) (checkAllCyclic it) (Hotswap.checkAllCyclic it) s := by
  have hs0 := hs
  obtain ⟨i, g, hl⟩ := hs
  unfold Ptr.checkAllCyclic Hotswap.checkAllCyclic
  refine RefAt.self hl (RefAt.pget (RefAt.mget ?_))
  rw [show s.abs.pm.pluginMap = g.pluginMap.mapV s.heap.deref from by rw [hl.abs]; rfl, GoMap.rangeKV_mapV]
  refine RefAt.forEach ?_ s hs0
  intro e he s' hs'
  have hg := mem_rangeKV_get he
  refine RefAt.ite (fun _ => RefAt.pure _ hs') (fun _ => ?_)
  have := checkCyclic_eq hl.keyed (g.pluginMap.size + 2) (some e.2) [] (fun r hr => by cases hr; exact ⟨_, hg⟩) (by simp)
  simp only [Option.map_some, List.map_nil] at this
  simp only [cyclicFuel, GoMap.size_mapV]
  rw [this]
  cases checkCyclic s.heap g.pluginMap (g.pluginMap.size + 2) (some e.2) [] with
  | clean => exact RefAt.pure _ hs'
  | cycle l => exact RefAt.throw _ hs'
  | nilDeref => exact RefAt.panic _ hs'
  | fuel => exact RefAt.panic _ hs'

theorem RefAt.checkRebuilt {B : Start} (it : Iter) {s : PSt} (hs : Alive B true s) : RefAt (Alive B true) (checkRebuilt it) (Hotswap.checkRebuilt it) s := by
  have hs0 := hs
  obtain ⟨i, g, hl⟩ := hs
  unfold Ptr.checkRebuilt Hotswap.checkRebuilt
  refine RefAt.self hl (RefAt.pget (RefAt.mget ?_))
  rw [show s.abs.pm.pluginMap = g.pluginMap.mapV s.heap.deref from by rw [hl.abs]; rfl, GoMap.rangeKV_mapV]
  refine RefAt.forEach ?_ s hs0
  intro e he s' hs'
  refine RefAt.ite (fun _ => ?_) (fun _ => RefAt.pure _ hs')
  refine RefAt.forEach' ?_ s' hs'
  intro d _ s'' hs''
  rw [GoMap.get?_mapV]
  cases g.pluginMap.get? (name2key d) with
  | none => exact RefAt.panic _ hs''
  | some q => exact RefAt.ite (fun _ => RefAt.pure _ hs'') (fun _ => RefAt.throw _ hs'')

/-! ### The order -/

theorem placed_eq {h : Heap} {m : GoMap Nat} (hk : ∀ k r, m.get? k = some r → name2key (h.deref r).name = k) {r : Nat} {k : Str} (hr : m.get? k = some r) {a : List Nat}
    (ha : ∀ q ∈ a, ∃ k, m.get? k = some q) : placed (a.map h.deref) (h.deref r) = a.contains r := by
  rw [← contains_keys hk hr ha, Bool.eq_iff_iff]
  simp only [placed, List.any_eq_true, List.mem_map, List.contains_iff_mem, beq_iff_eq]
  constructor
  · rintro ⟨_, ⟨q, hq, rfl⟩, he⟩; exact ⟨q, hq, he⟩
  · rintro ⟨q, hq, he⟩; exact ⟨_, ⟨q, hq, rfl⟩, he⟩

theorem depsPlaced_eq {h : Heap} {m : GoMap Nat} (hk : ∀ k r, m.get? k = some r → name2key (h.deref r).name = k) {a : List Nat}
    (ha : ∀ q ∈ a, ∃ k, m.get? k = some q) (r : Nat) : Hotswap.depsPlaced (m.mapV h.deref) (a.map h.deref) (h.deref r) = depsPlaced h m a r := by
  unfold Hotswap.depsPlaced depsPlaced
  congr 1
  funext d
  rw [GoMap.get?_mapV]
  cases hd : m.get? (name2key d) with
  | none => rfl
  | some q => exact placed_eq hk hd ha

theorem orderStep_eq {h : Heap} {m : GoMap Nat} (hk : ∀ k r, m.get? k = some r → name2key (h.deref r).name = k) {a : List Nat}
    (ha : ∀ q ∈ a, ∃ k, m.get? k = some q) (k : Str) :
    Hotswap.orderStep (m.mapV h.deref) (a.map h.deref) k = (orderStep h m a k).map h.deref ∧ ∀ q ∈ orderStep h m a k, ∃ k, m.get? k = some q := by
  unfold Hotswap.orderStep orderStep
  rw [GoMap.get?_mapV]
  cases hr : m.get? k with
  | none => exact ⟨rfl, ha⟩
  | some r =>
    simp only [Option.map_some, placed_eq hk hr ha, depsPlaced_eq hk ha]
    by_cases h1 : a.contains r = true
    · rw [if_pos h1, if_pos h1]; exact ⟨rfl, ha⟩
    · rw [if_neg h1, if_neg h1]
      by_cases h2 : depsPlaced h m a r = true
      · rw [if_pos h2, if_pos h2]
        refine ⟨by simp, ?_⟩
        intro q hq
        rcases List.mem_append.mp hq with hq | hq
        · exact ha q hq
        · rw [List.mem_singleton.mp hq]; exact ⟨k, hr⟩
      · rw [if_neg h2, if_neg h2]; exact ⟨rfl, ha⟩

theorem orderFold_eq {h : Heap} {m : GoMap Nat} (hk : ∀ k r, m.get? k = some r → name2key (h.deref r).name = k) : ∀ (keys : List Str) {a : List Nat},
    (∀ q ∈ a, ∃ k, m.get? k = some q) →
    keys.foldl (Hotswap.orderStep (m.mapV h.deref)) (a.map h.deref) = (keys.foldl (orderStep h m) a).map h.deref ∧ ∀ q ∈ keys.foldl (orderStep h m) a, ∃ k, m.get? k = some q := by
  intro keys
  induction keys with
  | nil => intro a ha; exact ⟨rfl, ha⟩
  | cons k r ih =>
    intro a ha
    simp only [List.foldl_cons]
    rw [(orderStep_eq hk ha k).1]
    exact ih (orderStep_eq hk ha k).2

theorem orderLoop_eq {h : Heap} {m : GoMap Nat} (hk : ∀ k r, m.get? k = some r → name2key (h.deref r).name = k) (keys : List Str) : ∀ (n : Nat) {a : List Nat},
    (∀ q ∈ a, ∃ k, m.get? k = some q) →
    Hotswap.orderLoop (m.mapV h.deref) keys n (a.map h.deref) = (orderLoop h m keys n a).map (List.map h.deref) ∧
      ∀ l, orderLoop h m keys n a = some l → ∀ q ∈ l, ∃ k, m.get? k = some q := by
  intro n
  induction n with
  | zero => intro a _; exact ⟨rfl, fun l hl => by cases hl⟩
  | succ n ih =>
    intro a ha
    simp only [Hotswap.orderLoop, orderLoop, List.length_map, GoMap.size_mapV]
    by_cases hz : a.length = m.size
    · rw [if_pos hz, if_pos hz]
      exact ⟨rfl, fun l hl => by cases hl; exact ha⟩
    · rw [if_neg hz, if_neg hz, (orderFold_eq hk keys ha).1]
      exact ih (orderFold_eq hk keys ha).2

theorem orderPlugins_eq {h : Heap} {m : GoMap Nat} (it : Iter) (hk : ∀ k r, m.get? k = some r → name2key (h.deref r).name = k) :
    Hotswap.orderPlugins it (m.mapV h.deref) = (orderPlugins it h m).map (List.map h.deref) ∧ ∀ l, orderPlugins it h m = some l → ∀ q ∈ l, ∃ k, m.get? k = some q := by
  have ha : ∀ q ∈ ((m.rangeKV it .order).filter (fun e => (h.deref e.2).deps.isEmpty)).map Prod.snd, ∃ k, m.get? k = some q := by
    intro q hq
    obtain ⟨e, he, rfl⟩ := List.mem_map.mp hq
    exact ⟨e.1, mem_rangeKV_get (List.mem_filter.mp he).1⟩
  have := orderLoop_eq hk (sortStrings (((m.rangeKV it .order).filter (fun e => !(h.deref e.2).deps.isEmpty)).map Prod.fst)) (m.size + 1) ha
  unfold Hotswap.orderPlugins orderPlugins
  simp only [GoMap.rangeKV_mapV, GoMap.size_mapV, List.filter_map, List.map_map, Function.comp_def]
  simp only [List.map_map, Function.comp_def] at this
  exact this

theorem modSelf_ok {B : Start} {o : Bool} {s : PSt} {i : Nat} {g : PMgr} (hl : Live B o s i g) (f : PMgr → PMgr) : (PM.modSelf f s).1 = .ok () := by
  unfold PM.modSelf
  rw [hl.me]

/-- Assignments to the manager under construction that leave its map as it is. -/
theorem Live.modSelf {B : Start} {o o' : Bool} {s : PSt} {i : Nat} {g : PMgr} (hl : Live B o s i g) (f : PMgr → PMgr) (hm : (f g).pluginMap = g.pluginMap)
    (ho : ∀ r ∈ (f g).ordered, B.heap.cells.length ≤ r ∧ r < s.heap.cells.length) (hu : o' = true → (f g).ordered = []) : Live B o' (PM.modSelf f s).2 i (f g) := by
  have hx : (PM.modSelf f s).2 = { s with heap := { s.heap with mgrs := fun j => if j = i then (s.heap.mgrs i).map f else s.heap.mgrs j }, writes := s.writes ++ [.manager i] } := by
    unfold PM.modSelf
    rw [hl.me]
  rw [hx]
  exact {
    cells := hl.cells
    mgrs := by
      intro j hj
      have : j ≠ i := fun h => by have := hl.mine; omega
      simp only [if_neg this]
      exact hl.mgrs j hj
    next := hl.next
    writes := by
      intro x hx
      rcases List.mem_append.mp hx with h | h
      · exact hl.writes x h
      · rw [List.mem_singleton.mp h]; exact hl.mine
    me := hl.me
    mgr := by simp [hl.mgr]
    mine := hl.mine
    taken := hl.taken
    others := by
      intro j hj
      simp only [if_neg hj]
      exact hl.others j hj
    range := by
      constructor
      · rw [hm]; exact hl.range.vals
      · exact ho
    keyed := by rw [hm]; exact hl.keyed
    unordered := hu }

theorem Live.modSelf_abs {B : Start} {o o' : Bool} {s : PSt} {i : Nat} {g : PMgr} (hl : Live B o s i g) (f : PMgr → PMgr) (hl' : Live B o' (PM.modSelf f s).2 i (f g)) :
    (PM.modSelf f s).2.abs = { s.abs with pm := s.heap.view i (f g) } := by
  have hx : (PM.modSelf f s).2 = { s with heap := { s.heap with mgrs := fun j => if j = i then (s.heap.mgrs i).map f else s.heap.mgrs j }, writes := s.writes ++ [.manager i] } := by
    unfold PM.modSelf
    rw [hl.me]
  rw [hl'.abs, hl.abs, hx]
  rfl

theorem RefAt.setOrder {B : Start} (it : Iter) {s : PSt} (hs : Alive B true s) : RefAt (Alive B false) (setOrder it) (Hotswap.setOrder it) s := by
  have hs0 := hs
  obtain ⟨i, g, hl⟩ := hs
  unfold Ptr.setOrder Hotswap.setOrder
  refine RefAt.self hl (RefAt.pget (RefAt.mget ?_))
  rw [show s.abs.pm.pluginMap = g.pluginMap.mapV s.heap.deref from by rw [hl.abs]; rfl, (orderPlugins_eq it hl.keyed).1]
  have h2 := (orderPlugins_eq (h := s.heap) it hl.keyed).2
  cases ho : orderPlugins it s.heap g.pluginMap with
  | none => exact RefAt.panic _ hs0.weaken
  | some a =>
    have hin := h2 a ho
    simp only [Option.map_some]
    have hl' : Live B false (PM.modSelf (fun g => { g with ordered := a }) s).2 i { g with ordered := a } := hl.modSelf _ rfl (fun r hr => by
      obtain ⟨k, hk⟩ := hin r hr
      exact hl.range.vals k r hk) (fun h => by cases h)
    refine ⟨?_, i, _, hl'⟩
    rw [hl.modSelf_abs _ hl', modSelf_ok hl, hl.abs]
    rfl

theorem RefAt.initDeps {B : Start} (it : Iter) {s : PSt} (hs : Alive B true s) : RefAt (Alive B false) (initDeps it) (Hotswap.initDeps it) s := by
  obtain ⟨i, g, hl⟩ := hs
  unfold Ptr.initDeps Hotswap.initDeps
  refine RefAt.self hl (RefAt.mget ?_)
  rw [show s.abs.pm.pluginMap.range it .depKeys = g.pluginMap.range it .depKeys from by rw [hl.abs]; exact GoMap.range_mapV _ _ _ _]
  have hw : ∀ s', Alive B true s' → Alive B false s' := fun _ h => h.weaken
  refine RefAt.bind (J := Alive B true) (RefAt.forEach' (fun k _ s hs => RefAt.importPlugin k hs) s ⟨i, g, hl⟩) ?_ hw
  intro _ s hs
  refine RefAt.bind (J := Alive B true) (RefAt.checkAllCyclic it hs) ?_ hw
  intro _ s hs
  refine RefAt.bind (J := Alive B true) (RefAt.checkRebuilt it hs) ?_ hw
  intro _ s hs
  exact RefAt.setOrder it hs

end

end Ptr
end Hotswap
