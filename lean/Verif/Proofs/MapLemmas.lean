import Verif.Go.Map

/-! Lemmas about Go maps and sorting. -/

namespace Hotswap

theorem lookup_map_fst {α β : Type} (l : List (Str × α)) (f : Str → α → β) (k : Str) :
    (l.map (fun e => (e.1, f e.1 e.2))).lookup k = (l.lookup k).map (f k) := by
  induction l with
  | nil => rfl
  | cons e r ih =>
    obtain ⟨a, v⟩ := e
    simp only [List.map_cons, List.lookup_cons]
    cases h : (k == a) with
    | true => simp at h; simp [h]
    | false => exact ih

theorem lookup_filter_ne {α : Type} (l : List (Str × α)) (k k' : Str) (h : k' ≠ k) :
    (l.filter (fun e => e.1 != k)).lookup k' = l.lookup k' := by
  induction l with
  | nil => rfl
  | cons e r ih =>
    obtain ⟨a, v⟩ := e
    by_cases ha : a = k
    · subst ha
      have : (k' == a) = false := by simpa using h
      simp [List.lookup_cons, this, ih]
    · have h1 : (a != k) = true := by simpa using ha
      rw [List.filter_cons]
      simp only [h1, if_true]
      rw [List.lookup_cons, List.lookup_cons, ih]

theorem mem_of_lookup {α : Type} {l : List (Str × α)} {k : Str} {v : α} (h : l.lookup k = some v) :
    (k, v) ∈ l := by
  induction l with
  | nil => simp at h
  | cons e r ih =>
    obtain ⟨a, w⟩ := e
    rw [List.lookup_cons] at h
    cases hk : (k == a) with
    | true => simp only [hk] at h; simp at hk h; simp [hk, h]
    | false => simp only [hk] at h; exact List.mem_cons_of_mem _ (ih h)

theorem lookup_of_mem {α : Type} {l : List (Str × α)} (hn : (l.map Prod.fst).Nodup) {k : Str} {v : α}
    (h : (k, v) ∈ l) : l.lookup k = some v := by
  induction l with
  | nil => simp at h
  | cons e r ih =>
    obtain ⟨a, w⟩ := e
    rw [List.map_cons, List.nodup_cons] at hn
    rw [List.lookup_cons]
    rcases List.mem_cons.mp h with h | h
    · cases h; simp
    · have hne : (k == a) = false := by
        have : k ≠ a := by
          intro hka; subst hka
          exact hn.1 (List.mem_map.mpr ⟨(k, v), ‹(k, v) ∈ r›, rfl⟩)
        simpa using this
      simp only [hne]; exact ih hn.2 h

theorem lookup_none_iff {α : Type} {l : List (Str × α)} {k : Str} :
    l.lookup k = none ↔ k ∉ l.map Prod.fst := by
  induction l with
  | nil => simp
  | cons e r ih =>
    obtain ⟨a, w⟩ := e
    rw [List.lookup_cons]
    cases hk : (k == a) with
    | true => simp at hk; simp [hk]
    | false => simp only [List.map_cons, List.mem_cons, not_or]; simp at hk; simp [hk, ih]

namespace GoMap
variable {α : Type}

theorem get?_eq_some {m : GoMap α} {k : Str} {v : α} : m.get? k = some v ↔ (k, v) ∈ m.entries :=
  ⟨mem_of_lookup, lookup_of_mem m.nodup⟩

theorem get?_eq_none {m : GoMap α} {k : Str} : m.get? k = none ↔ k ∉ m.keys := lookup_none_iff

theorem mem_keys {m : GoMap α} {k : Str} : k ∈ m.keys ↔ ∃ v, m.get? k = some v := by
  constructor
  · intro h
    cases hg : m.get? k with
    | none => exact absurd h (get?_eq_none.mp hg)
    | some v => exact ⟨v, rfl⟩
  · rintro ⟨v, hv⟩
    exact List.mem_map.mpr ⟨_, get?_eq_some.mp hv, rfl⟩

theorem mem_vals {m : GoMap α} {v : α} : v ∈ m.vals ↔ ∃ k, m.get? k = some v := by
  constructor
  · intro h
    obtain ⟨⟨k, w⟩, he, rfl⟩ := List.mem_map.mp h
    exact ⟨k, get?_eq_some.mpr he⟩
  · rintro ⟨k, hk⟩
    exact List.mem_map.mpr ⟨_, get?_eq_some.mp hk, rfl⟩

@[simp] theorem get?_empty (k : Str) : (empty : GoMap α).get? k = none := rfl

@[simp] theorem keys_empty : (empty : GoMap α).keys = [] := rfl

@[simp] theorem vals_empty : (empty : GoMap α).vals = [] := rfl

theorem keys_nodup (m : GoMap α) : m.keys.Nodup := m.nodup

theorem get?_insert (m : GoMap α) (k k' : Str) (v : α) :
    (m.insert k v).get? k' = if k' = k then some v else m.get? k' := by
  unfold get? insert
  rw [List.lookup_cons]
  by_cases h : k' = k
  · simp [h]
  · have : (k' == k) = false := by simpa using h
    simp only [this, if_neg h]
    exact lookup_filter_ne _ _ _ h

theorem entries_insert_of_not_mem (m : GoMap α) (k : Str) (v : α) (h : m.get? k = none) :
    (m.insert k v).entries = (k, v) :: m.entries := by
  have hk := get?_eq_none.mp h
  show (k, v) :: m.entries.filter (fun e => e.1 != k) = (k, v) :: m.entries
  congr 1
  apply List.filter_eq_self.mpr
  intro e he
  have : e.1 ∈ m.keys := List.mem_map.mpr ⟨e, he, rfl⟩
  simp only [bne_iff_ne, ne_eq]
  intro hek; exact hk (hek ▸ this)

theorem get?_filter (m : GoMap α) (p : Str → α → Bool) (k : Str) :
    (m.filter p).get? k = (m.get? k).filter (p k) := by
  cases h : m.get? k with
  | none =>
    rw [get?_eq_none] at h
    have : (m.filter p).get? k = none := by
      rw [get?_eq_none]
      intro hk
      obtain ⟨e, he, rfl⟩ := List.mem_map.mp hk
      exact h (List.mem_map.mpr ⟨e, (List.mem_filter.mp he).1, rfl⟩)
    simpa using this
  | some v =>
    cases hp : p k v with
    | true =>
      have : (m.filter p).get? k = some v := by
        rw [get?_eq_some]
        exact List.mem_filter.mpr ⟨get?_eq_some.mp h, hp⟩
      simp [this, Option.filter, hp]
    | false =>
      have : (m.filter p).get? k = none := by
        rw [get?_eq_none]
        intro hk
        obtain ⟨⟨a, w⟩, he, rfl⟩ := List.mem_map.mp hk
        obtain ⟨he, hpw⟩ := List.mem_filter.mp he
        have := get?_eq_some.mpr he
        simp only at h hp
        rw [h] at this; cases this; rw [hp] at hpw; cases hpw
      simp [this, Option.filter, hp]

theorem get?_modify (m : GoMap α) (k k' : Str) (f : α → α) :
    (m.modify k f).get? k' = if k' = k then (m.get? k').map f else m.get? k' := by
  unfold get? modify
  have : m.entries.map (fun e => if e.1 = k then (e.1, f e.2) else e)
      = m.entries.map (fun e => (e.1, (fun a v => if a = k then f v else v) e.1 e.2)) := by
    apply List.map_congr_left
    intro e _
    dsimp only
    split <;> rfl
  simp only [this]
  rw [lookup_map_fst (f := fun a v => if a = k then f v else v)]
  by_cases h : k' = k
  · simp [h]
  · simp [h]

theorem keys_modify (m : GoMap α) (k : Str) (f : α → α) : (m.modify k f).keys = m.keys := by
  unfold keys modify
  rw [List.map_map]; congr 1; funext e; simp only [Function.comp]; split <;> rfl

theorem size_eq_keys (m : GoMap α) : m.size = m.keys.length := by simp [size, keys]

theorem size_eq_vals (m : GoMap α) : m.size = m.vals.length := by simp [size, vals]

theorem map_vals_modify {β : Type} (m : GoMap α) (k : Str) (f : α → α) (g : α → β) (h : ∀ a, g (f a) = g a) :
    (m.modify k f).vals.map g = m.vals.map g := by
  unfold vals modify
  simp only [List.map_map]
  apply List.map_congr_left
  intro e _
  simp only [Function.comp]
  split <;> simp [h]

theorem vals_insert_of_not_mem (m : GoMap α) (k : Str) (v : α) (h : m.get? k = none) :
    (m.insert k v).vals = v :: m.vals := by
  unfold vals; rw [entries_insert_of_not_mem m k v h]; rfl

theorem keys_insert_of_not_mem (m : GoMap α) (k : Str) (v : α) (h : m.get? k = none) :
    (m.insert k v).keys = k :: m.keys := by
  unfold keys; rw [entries_insert_of_not_mem m k v h]; rfl

theorem range_perm (it : Iter) (s : Site) (m : GoMap α) : (m.range it s).Perm m.keys := it.perm s m.keys

theorem mem_range {it : Iter} {s : Site} {m : GoMap α} {k : Str} : k ∈ m.range it s ↔ k ∈ m.keys :=
  (range_perm it s m).mem_iff

theorem range_nodup (it : Iter) (s : Site) (m : GoMap α) : (m.range it s).Nodup :=
  (range_perm it s m).symm.nodup m.keys_nodup

theorem keys_filterMap (m : GoMap α) :
    m.keys.filterMap (fun k => (m.get? k).map (fun v => (k, v))) = m.entries := by
  have key : ∀ (l : List (Str × α)), (∀ e ∈ l, m.get? e.1 = some e.2) →
      (l.map Prod.fst).filterMap (fun k => (m.get? k).map (fun v => (k, v))) = l := by
    intro l
    induction l with
    | nil => intro _; rfl
    | cons e r ih =>
      intro h
      rw [List.map_cons, List.filterMap_cons, h e (List.mem_cons_self ..)]
      simp only [Option.map_some]
      rw [ih (fun e he => h e (List.mem_cons_of_mem _ he))]
  exact key m.entries (fun e he => get?_eq_some.mpr he)

theorem rangeKV_perm (it : Iter) (s : Site) (m : GoMap α) : (m.rangeKV it s).Perm m.entries := by
  have := (range_perm it s m).filterMap (fun k => (m.get? k).map (fun v => (k, v)))
  rw [keys_filterMap] at this
  exact this

theorem rangeKV_vals_perm (it : Iter) (s : Site) (m : GoMap α) :
    ((m.rangeKV it s).map Prod.snd).Perm m.vals := (rangeKV_perm it s m).map _

theorem mem_rangeKV {it : Iter} {s : Site} {m : GoMap α} {k : Str} {v : α} :
    (k, v) ∈ m.rangeKV it s ↔ m.get? k = some v :=
  (rangeKV_perm it s m).mem_iff.trans get?_eq_some.symm

/-- Two maps with the same lookups have the same entries up to order. -/
theorem entries_perm_of_get? {m m' : GoMap α} (h : ∀ k, m.get? k = m'.get? k) : m.entries.Perm m'.entries := by
  have hn : m.entries.Nodup := (List.nodup_map_iff_of_inj_on' m.nodup)
  have hn' : m'.entries.Nodup := (List.nodup_map_iff_of_inj_on' m'.nodup)
  exact (List.perm_ext_iff_of_nodup hn hn').mpr (fun e => by
    rw [← get?_eq_some (m := m) (k := e.1) (v := e.2), h, get?_eq_some])
where
  List.nodup_map_iff_of_inj_on' {l : List (Str × α)} (h : (l.map Prod.fst).Nodup) : l.Nodup := by
    induction l with
    | nil => simp
    | cons e r ih =>
      rw [List.map_cons, List.nodup_cons] at h
      rw [List.nodup_cons]
      exact ⟨fun he => h.1 (List.mem_map.mpr ⟨e, he, rfl⟩), ih h.2⟩

end GoMap

/-! ### sorting -/

theorem insertSorted_perm (a : Str) (l : List Str) : (Str.insertSorted a l).Perm (a :: l) := by
  induction l with
  | nil => exact .refl _
  | cons b r ih =>
    unfold Str.insertSorted
    split
    · exact .refl _
    · exact (List.Perm.cons b ih).trans (List.Perm.swap a b r)

theorem sortStrings_perm (l : List Str) : (sortStrings l).Perm l := by
  induction l with
  | nil => exact .refl _
  | cons a r ih => exact (insertSorted_perm a _).trans (List.Perm.cons a ih)

theorem Str.le_iff {a b : Str} : Str.le a b = true ↔ a ≤ b := by simp [Str.le]

theorem insertSorted_sorted (a : Str) (l : List Str) (h : l.Pairwise (· ≤ ·)) :
    (Str.insertSorted a l).Pairwise (· ≤ ·) := by
  induction l with
  | nil => simp [Str.insertSorted]
  | cons b r ih =>
    unfold Str.insertSorted
    rw [List.pairwise_cons] at h
    split
    · rename_i hab
      rw [Str.le_iff] at hab
      rw [List.pairwise_cons]
      refine ⟨fun x hx => ?_, List.pairwise_cons.mpr h⟩
      rcases List.mem_cons.mp hx with rfl | hx
      · exact hab
      · exact List.le_trans hab (h.1 x hx)
    · rename_i hab
      have hba : b ≤ a := by
        rw [Str.le_iff] at hab
        exact (List.le_total a b).resolve_left hab
      rw [List.pairwise_cons]
      refine ⟨fun x hx => ?_, ih h.2⟩
      rcases List.mem_cons.mp ((insertSorted_perm a r).mem_iff.mp hx) with rfl | hx
      · exact hba
      · exact h.1 x hx

theorem sortStrings_sorted (l : List Str) : (sortStrings l).Pairwise (· ≤ ·) := by
  induction l with
  | nil => simp [sortStrings]
  | cons a r ih => exact insertSorted_sorted a _ ih

theorem sorted_perm_unique {l l' : List Str} (hl : l.Pairwise (· ≤ ·)) (hl' : l'.Pairwise (· ≤ ·))
    (h : l.Perm l') : l = l' :=
  h.eq_of_pairwise (fun _ _ _ _ hab hba => List.le_antisymm hab hba) hl hl'

/-- The result of sorting depends only on the multiset of strings. -/
theorem sortStrings_congr {l l' : List Str} (h : l.Perm l') : sortStrings l = sortStrings l' :=
  sorted_perm_unique (sortStrings_sorted l) (sortStrings_sorted l')
    ((sortStrings_perm l).trans (h.trans (sortStrings_perm l').symm))

theorem mem_sortStrings {l : List Str} {a : Str} : a ∈ sortStrings l ↔ a ∈ l := (sortStrings_perm l).mem_iff

end Hotswap
