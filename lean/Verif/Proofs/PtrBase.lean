import Verif.Model.Ptr
import Verif.Proofs.Sim

/-!
# The pointer level refines the model: states, invariants, primitives
-/

namespace Hotswap
namespace Ptr

/-! ### Heaps -/

theorem Heap.deref_lt {h : Heap} {r : Nat} (hr : r < h.cells.length) : h.cells[r]? = some (h.deref r) := by
  unfold Heap.deref
  rw [List.getElem?_eq_getElem hr]; rfl

/-- The manager that the pointers of `g` lead to. -/
def Heap.view (h : Heap) (i : Nat) (g : PMgr) : Manager := { mid := i, pluginMap := g.pluginMap.mapV h.deref, ordered := g.ordered.map h.deref, vault := g.vault }

theorem Heap.manager_eq {h : Heap} {i : Nat} : h.manager i = (h.mgrs i).map (h.view i) := rfl

theorem Heap.manager_some {h : Heap} {i : Nat} {g : PMgr} (hg : h.mgrs i = some g) : h.manager i = some (h.view i g) := by
  rw [Heap.manager_eq, hg]; rfl

/-- All pointers of `g` lie in the range. -/
structure InRange (lo hi : Nat) (g : PMgr) : Prop where
  vals : ∀ k r, g.pluginMap.get? k = some r → lo ≤ r ∧ r < hi
  ordered : ∀ r ∈ g.ordered, lo ≤ r ∧ r < hi

theorem view_congr {h h' : Heap} {i lo hi : Nat} {g : PMgr} (hr : InRange lo hi g) (he : ∀ r, r < hi → h'.deref r = h.deref r) : h'.view i g = h.view i g := by
  unfold Heap.view
  congr 1
  · apply GoMap.ext
    simp only [GoMap.mapV]
    refine List.map_congr_left ?_
    intro e hm
    rw [he e.2 (hr.vals e.1 e.2 (GoMap.get?_eq_some.mpr hm)).2]
  · exact List.map_congr_left (fun r hm => he r (hr.ordered r hm).2)

/-! ### Invariants -/

/-- What existed when the call began. -/
structure Start where
  next : Nat
  heap : Heap

/-- The struct did not exist when the call began. -/
def Wr.Fresh (B : Start) : Wr → Prop
  | .plugin r => B.heap.cells.length ≤ r
  | .manager i => B.next ≤ i

/-- Nothing that existed when the call began has been changed, at any time. -/
structure Inv (B : Start) (s : PSt) : Prop where
  cells : ∃ t, s.heap.cells = B.heap.cells ++ t
  mgrs : ∀ j, j < B.next → s.heap.mgrs j = B.heap.mgrs j
  next : B.next ≤ s.next
  writes : ∀ w ∈ s.writes, w.Fresh B

section
variable [GoRuntime]

/-- `i` points to the manager under construction, whose struct is `g`. `o`: there is no order yet. -/
structure Live (B : Start) (o : Bool) (s : PSt) (i : Nat) (g : PMgr) : Prop extends Inv B s where
  me : s.me = some i
  mgr : s.heap.mgrs i = some g
  mine : B.next ≤ i
  taken : i < s.next
  others : ∀ j, j ≠ i → s.heap.mgrs j = B.heap.mgrs j
  range : InRange B.heap.cells.length s.heap.cells.length g
  keyed : ∀ k r, g.pluginMap.get? k = some r → name2key (s.heap.deref r).name = k
  unordered : o = true → g.ordered = []

/-- There is a manager under construction. -/
def Alive (B : Start) (o : Bool) (s : PSt) : Prop := ∃ i g, Live B o s i g

/-- What the model sees of a state. -/
def PSt.abs (s : PSt) : LoadSt where
  next := s.next
  pm := match s.me with
    | none => noManager
    | some i => (s.heap.manager i).getD noManager
  acts := s.acts

theorem Live.abs {B : Start} {o : Bool} {s : PSt} {i : Nat} {g : PMgr} (h : Live B o s i g) : s.abs = { next := s.next, pm := s.heap.view i g, acts := s.acts } := by
  unfold PSt.abs
  rw [h.me]
  simp only [Heap.manager_some h.mgr, Option.getD_some]

theorem Live.weaken {B : Start} {o : Bool} {s : PSt} {i : Nat} {g : PMgr} (h : Live B o s i g) : Live B false s i g := { h with unordered := fun h => by cases h }

theorem Alive.weaken {B : Start} {o : Bool} {s : PSt} (h : Alive B o s) : Alive B false s := by
  obtain ⟨i, g, h⟩ := h
  exact ⟨i, g, h.weaken⟩

theorem Alive.inv {B : Start} {o : Bool} {s : PSt} (h : Alive B o s) : Inv B s := by
  obtain ⟨i, g, h⟩ := h
  exact h.toInv

theorem Live.unique {B : Start} {o o' : Bool} {s : PSt} {i i' : Nat} {g g' : PMgr} (h : Live B o s i g) (h' : Live B o' s i' g') : i = i' ∧ g = g' := by
  have e1 := h.me.symm.trans h'.me
  cases e1
  have e2 := h.mgr.symm.trans h'.mgr
  cases e2
  exact ⟨rfl, rfl⟩

/-! ### Refinement -/

/-- In the state `s`, `y` does to what the model sees what `x` does to the structs, and `J` holds afterwards. -/
def RefAt {α : Type} (J : PSt → Prop) (x : PM α) (y : M α) (s : PSt) : Prop := y s.abs = ((x s).1, (x s).2.abs) ∧ J (x s).2

theorem RefAt.bind {α β : Type} {J K : PSt → Prop} {x : PM α} {y : M α} {f : α → PM β} {f' : α → M β} {s : PSt} (h : RefAt J x y s)
    (hf : ∀ a s', J s' → RefAt K (f a) (f' a) s') (hw : ∀ s', J s' → K s') : RefAt K (x >>= f) (y >>= f') s := by
  unfold RefAt at h
  obtain ⟨h1, h2⟩ := h
  change M.bind y f' s.abs = ((PM.bind x f s).1, (PM.bind x f s).2.abs) ∧ K (PM.bind x f s).2
  unfold M.bind PM.bind
  rw [h1]
  revert h2
  rcases x s with ⟨r, s'⟩
  intro h2
  cases r with
  | ok a => exact hf a s' h2
  | err e => exact ⟨rfl, hw _ h2⟩
  | panic p => exact ⟨rfl, hw _ h2⟩

theorem RefAt.bind' {α β : Type} {J K : PSt → Prop} {x : PM α} {y : M α} {f : α → PM β} {f' : α → M β} {s : PSt} (h : RefAt J x y s)
    (hf : ∀ a s', J s' → RefAt K (f a) (f' a) s') (hw : ∀ s', J s' → K s') : RefAt K (PM.bind x f) (M.bind y f') s := RefAt.bind h hf hw

theorem RefAt.mono {α : Type} {J K : PSt → Prop} {x : PM α} {y : M α} {s : PSt} (h : RefAt J x y s) (hw : ∀ s', J s' → K s') : RefAt K x y s := ⟨h.1, hw _ h.2⟩

/-- A step of the pointer level that the model does not have. -/
theorem RefAt.skip {α β : Type} {J K : PSt → Prop} {x : PM α} {f : α → PM β} {y : M β} {s s' : PSt} {a : α} (hx : x s = (.ok a, s')) (ha : s'.abs = s.abs) (hj : J s')
    (hf : J s' → RefAt K (f a) y s') : RefAt K (x >>= f) y s := by
  obtain ⟨h1, h2⟩ := hf hj
  unfold RefAt
  change y s.abs = ((PM.bind x f s).1, (PM.bind x f s).2.abs) ∧ K (PM.bind x f s).2
  unfold PM.bind
  rw [hx, ← ha]
  exact ⟨h1, h2⟩

/-- `let s ← M.get` of the model. -/
theorem RefAt.mget {α : Type} {J : PSt → Prop} {x : PM α} {f' : LoadSt → M α} {s : PSt} (h : RefAt J x (f' s.abs) s) : RefAt J x (M.get >>= f') s := h

/-- `let s ← PM.get` of the pointer level. -/
theorem RefAt.pget {α : Type} {J : PSt → Prop} {f : PSt → PM α} {y : M α} {s : PSt} (h : RefAt J (f s) y s) : RefAt J (PM.get >>= f) y s := h

theorem self_ok {B : Start} {o : Bool} {s : PSt} {i : Nat} {g : PMgr} (hl : Live B o s i g) : PM.self s = (.ok g, s) := by
  unfold PM.self PM.mgr
  rw [hl.me]
  simp only [hl.mgr]

theorem RefAt.self {α : Type} {J : PSt → Prop} {f : PMgr → PM α} {y : M α} {B : Start} {o : Bool} {s : PSt} {i : Nat} {g : PMgr} (hl : Live B o s i g)
    (h : RefAt J (f g) y s) : RefAt J (PM.self >>= f) y s :=
  RefAt.skip (J := fun _ => True) (self_ok hl) rfl trivial (fun _ => h)

theorem cell_ok {s : PSt} {r : Nat} (hr : r < s.heap.cells.length) : PM.cell r s = (.ok (s.heap.deref r), s) := by
  unfold PM.cell
  rw [Heap.deref_lt hr]

theorem RefAt.cell {α : Type} {J : PSt → Prop} {f : Plugin → PM α} {y : M α} {s : PSt} {r : Nat} (hr : r < s.heap.cells.length)
    (h : RefAt J (f (s.heap.deref r)) y s) : RefAt J (PM.cell r >>= f) y s :=
  RefAt.skip (J := fun _ => True) (cell_ok hr) rfl trivial (fun _ => h)

theorem RefAt.pure {α : Type} {J : PSt → Prop} {s : PSt} (a : α) (h : J s) : RefAt J (PM.pure a) (M.pure a) s := ⟨rfl, h⟩
theorem RefAt.pure' {α : Type} {J : PSt → Prop} {s : PSt} (a : α) (h : J s) : RefAt J (Pure.pure a : PM α) (Pure.pure a) s := ⟨rfl, h⟩
theorem RefAt.throw {α : Type} {J : PSt → Prop} {s : PSt} (e : Err) (h : J s) : RefAt J (PM.throw e : PM α) (M.throw e) s := ⟨rfl, h⟩
theorem RefAt.panic {α : Type} {J : PSt → Prop} {s : PSt} (e : Panic) (h : J s) : RefAt J (PM.panic e : PM α) (M.panic e) s := ⟨rfl, h⟩

theorem RefAt.ite {α : Type} {J : PSt → Prop} {c : Prop} [Decidable c] {x y : PM α} {x' y' : M α} {s : PSt} (h : c → RefAt J x x' s) (h' : ¬ c → RefAt J y y' s) :
    RefAt J (if c then x else y) (if c then x' else y') s := by
  by_cases hc : c
  · rw [if_pos hc, if_pos hc]; exact h hc
  · rw [if_neg hc, if_neg hc]; exact h' hc

/-- Loops. -/
theorem RefAt.forEach {α β : Type} {J : PSt → Prop} {l : List α} {t : α → β} {f : α → PM Unit} {f' : β → M Unit} (h : ∀ a ∈ l, ∀ s, J s → RefAt J (f a) (f' (t a)) s) :
    ∀ s, J s → RefAt J (PM.forEach l f) (M.forEach (l.map t) f') s := by
  induction l with
  | nil => intro s hj; exact RefAt.pure () hj
  | cons a r ih => intro s hj; exact RefAt.bind' (h a (by simp) s hj) (fun _ s' hj' => ih (fun b hb => h b (List.mem_cons_of_mem _ hb)) s' hj') (fun _ h => h)

theorem RefAt.forEach' {α : Type} {J : PSt → Prop} {l : List α} {f : α → PM Unit} {f' : α → M Unit} (h : ∀ a ∈ l, ∀ s, J s → RefAt J (f a) (f' a) s) :
    ∀ s, J s → RefAt J (PM.forEach l f) (M.forEach l f') s := by
  have := RefAt.forEach (J := J) (t := fun a => a) (f' := f') h
  rwa [List.map_id'] at this

/-! ### Primitives -/

theorem Inv.emit {B : Start} {s : PSt} (h : Inv B s) (a : Act) : Inv B (PM.emit a s).2 := ⟨h.cells, h.mgrs, h.next, h.writes⟩

theorem Live.emit {B : Start} {o : Bool} {s : PSt} {i : Nat} {g : PMgr} (h : Live B o s i g) (a : Act) : Live B o (PM.emit a s).2 i g :=
  { toInv := h.toInv.emit a, me := h.me, mgr := h.mgr, mine := h.mine, taken := h.taken, others := h.others, range := h.range, keyed := h.keyed, unordered := h.unordered }

theorem Alive.emit {B : Start} {o : Bool} {s : PSt} (h : Alive B o s) (a : Act) : Alive B o (PM.emit a s).2 := by
  obtain ⟨i, g, h⟩ := h
  exact ⟨i, g, h.emit a⟩

theorem emit_abs (a : Act) (s : PSt) : M.emit a s.abs = (.ok (), (PM.emit a s).2.abs) := rfl

theorem RefAt.emit {J : PSt → Prop} {s : PSt} (a : Act) (h : J (PM.emit a s).2) : RefAt J (PM.emit a) (M.emit a) s := ⟨rfl, h⟩

theorem Inv.alloc {B : Start} {s : PSt} (h : Inv B s) : Inv B (PM.alloc s).2 := ⟨h.cells, h.mgrs, Nat.le_succ_of_le h.next, h.writes⟩

theorem Alive.alloc {B : Start} {o : Bool} {s : PSt} (h : Alive B o s) : Alive B o (PM.alloc s).2 := by
  obtain ⟨i, g, h⟩ := h
  exact ⟨i, g, { toInv := h.toInv.alloc, me := h.me, mgr := h.mgr, mine := h.mine, taken := Nat.lt_succ_of_lt h.taken, others := h.others, range := h.range, keyed := h.keyed, unordered := h.unordered }⟩

theorem RefAt.alloc {J : PSt → Prop} {s : PSt} (h : J (PM.alloc s).2) : RefAt J PM.alloc M.alloc s := ⟨rfl, h⟩

theorem RefAt.invokeRet {α : Type} {J : PSt → Prop} {s : PSt} (p : Str) (r : Ret α) (h : J s) : RefAt J (invokeRet p r) (Hotswap.invokeRet p r) s := by
  cases r with
  | ret a => exact RefAt.pure a h
  | panics => exact RefAt.throw _ h

/-- A new struct does not disturb the others. -/
theorem deref_new {h : Heap} {p : Plugin} {r : Nat} (hr : r < h.cells.length) : Heap.deref { h with cells := h.cells ++ [p] } r = h.deref r := by
  unfold Heap.deref
  simp only [List.getElem?_append_left hr]

theorem deref_new_self {h : Heap} {p : Plugin} : Heap.deref { h with cells := h.cells ++ [p] } h.cells.length = p := by
  unfold Heap.deref
  simp

theorem deref_write {h : Heap} {f : Plugin → Plugin} {r q : Nat} (hr : r < h.cells.length) :
    Heap.deref { h with cells := h.cells.modify r f } q = if q = r then f (h.deref r) else h.deref q := by
  unfold Heap.deref
  simp only [List.getElem?_modify]
  by_cases hq : q = r
  · subst hq
    rw [List.getElem?_eq_getElem hr]
    simp
  · rw [if_neg hq]
    have : (if r = q then f else id) = id := by rw [if_neg (fun h => hq h.symm)]
    cases hc : h.cells[q]? with
    | none => simp
    | some a => simp [Ne.symm hq]

/-- The state after entering a new struct in the map of the manager `i`. -/
def enterSt (s : PSt) (i : Nat) (p : Plugin) (w : List Wr) : PSt where
  next := s.next
  heap := { cells := s.heap.cells ++ [p], mgrs := fun j => if j = i then (s.heap.mgrs i).map (fun g => { g with pluginMap := g.pluginMap.insert (name2key p.name) s.heap.cells.length }) else s.heap.mgrs j }
  me := s.me
  acts := s.acts
  writes := s.writes ++ w

theorem Live.entered {B : Start} {s : PSt} {i : Nat} {g : PMgr} (hl : Live B true s i g) (p : Plugin) {w : List Wr} (hw : ∀ x ∈ w, x.Fresh B) :
    Live B true (enterSt s i p w) i { g with pluginMap := g.pluginMap.insert (name2key p.name) s.heap.cells.length } where
  cells := by
    obtain ⟨t, ht⟩ := hl.cells
    exact ⟨t ++ [p], by simp [enterSt, ht]⟩
  mgrs := by
    intro j hj
    have : j ≠ i := fun h => by have := hl.mine; omega
    simp only [enterSt, if_neg this]
    exact hl.mgrs j hj
  next := hl.next
  writes := by
    intro x hx
    rcases List.mem_append.mp hx with h | h
    · exact hl.writes x h
    · exact hw x h
  me := hl.me
  mgr := by simp [enterSt, hl.mgr]
  mine := hl.mine
  taken := hl.taken
  others := by
    intro j hj
    simp only [enterSt, if_neg hj]
    exact hl.others j hj
  range := by
    obtain ⟨t, ht⟩ := hl.cells
    constructor
    · intro k r hk
      simp only [GoMap.get?_insert] at hk
      simp only [enterSt, List.length_append, List.length_singleton]
      split at hk
      · cases hk; rw [ht]; simp only [List.length_append]; omega
      · have := hl.range.vals k r hk; omega
    · intro r hr
      simp only [hl.unordered rfl] at hr
      cases hr
  keyed := by
    intro k r hk
    simp only [GoMap.get?_insert] at hk
    split at hk
    · rename_i he
      cases hk
      simp only [enterSt]
      rw [show Heap.deref { cells := s.heap.cells ++ [p], mgrs := _ } s.heap.cells.length = p from by unfold Heap.deref; simp]
      exact he.symm
    · rw [show (enterSt s i p w).heap.deref r = s.heap.deref r from by
        unfold Heap.deref enterSt; simp only [List.getElem?_append_left (hl.range.vals k r hk).2]]
      exact hl.keyed k r hk
  unordered := hl.unordered

theorem Live.entered_abs {B : Start} {s : PSt} {i : Nat} {g : PMgr} (hl : Live B true s i g) (p : Plugin) (w : List Wr) (hw : ∀ x ∈ w, x.Fresh B) :
    (enterSt s i p w).abs = { s.abs with pm := { s.abs.pm with pluginMap := s.abs.pm.pluginMap.insert (name2key p.name) p } } := by
  rw [(hl.entered p hw).abs, hl.abs]
  have hd : ∀ r, r < s.heap.cells.length → (enterSt s i p w).heap.deref r = s.heap.deref r := by
    intro r hr
    unfold Heap.deref enterSt; simp only [List.getElem?_append_left hr]
  have hv := view_congr (i := i) hl.range hd
  have hp : (enterSt s i p w).heap.deref s.heap.cells.length = p := by unfold Heap.deref enterSt; simp
  simp only [Heap.view, Manager.mk.injEq, true_and] at hv
  simp only [Heap.view, GoMap.mapV_insert, hp, hv.1, hv.2.1]
  rfl

/-- Enter a new struct in the map: `r := new p; pm.pluginMap[name2key p.name] = r`. -/
theorem RefAt.enter {B : Start} {s : PSt} (hs : Alive B true s) (p : Plugin) :
    RefAt (Alive B true) (PM.new p >>= fun r => setPlugin (name2key p.name) r) (Hotswap.setPlugin (name2key p.name) p) s := by
  obtain ⟨i, g, hl⟩ := hs
  have hw : ∀ x ∈ [Wr.plugin s.heap.cells.length, Wr.manager i], x.Fresh B := by
    obtain ⟨t, ht⟩ := hl.cells
    intro x hx
    simp only [List.mem_cons, List.not_mem_nil, or_false] at hx
    rcases hx with rfl | rfl
    · simp [Wr.Fresh, ht]
    · exact hl.mine
  have hx : (PM.new p >>= fun r => setPlugin (name2key p.name) r) s = (.ok (), enterSt s i p [.plugin s.heap.cells.length, .manager i]) := by
    change PM.bind _ _ s = _
    simp [PM.bind, PM.new, setPlugin, PM.modSelf, hl.me, enterSt]
  refine ⟨?_, ?_⟩
  · rw [hx, hl.entered_abs p _ hw]; rfl
  · rw [hx]; exact ⟨i, _, hl.entered p hw⟩

end

end Ptr
end Hotswap
