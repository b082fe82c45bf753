import Verif.Model.Load
import Verif.Spec.Manager
import Verif.Proofs.MapLemmas
import Mathlib.Data.List.Nodup
import Batteries.Data.List.Perm

/-! The cycle check and the ordering of plugins. -/

namespace Hotswap

variable [GoRuntime]

theorem Chk.first_clean {l : List Chk} : Chk.first l = .clean ↔ ∀ c ∈ l, c = .clean := by
  induction l with
  | nil => simp [Chk.first]
  | cons a r ih => cases a <;> simp [Chk.first, ih]

theorem Chk.first_mem {l : List Chk} (h : Chk.first l ≠ .clean) : Chk.first l ∈ l := by
  induction l with
  | nil => simp [Chk.first] at h
  | cons a r ih =>
    cases a with
    | clean => simp only [Chk.first] at *; exact List.mem_cons_of_mem _ (ih h)
    | cycle => simp [Chk.first]
    | nilDeref => simp [Chk.first]
    | fuel => simp [Chk.first]

theorem Chk.push_clean {n : Str} {c : Chk} : c.push n = .clean ↔ c = .clean := by
  cases c <;> simp [Chk.push]

theorem Chk.push_fuel {n : Str} {c : Chk} : c.push n = .fuel ↔ c = .fuel := by
  cases c <;> simp [Chk.push]

theorem Chk.push_nilDeref {n : Str} {c : Chk} : c.push n = .nilDeref ↔ c = .nilDeref := by
  cases c <;> simp [Chk.push]

/-- All chains of dependencies from `p` have fewer than `n` members and never leave the map. -/
def Height (m : GoMap Plugin) : Nat → Plugin → Prop
  | 0, _ => False
  | n + 1, p => ∀ d ∈ p.deps, ∃ q, m.get? (name2key d) = some q ∧ Height m n q

theorem checkCyclic_clean {m : GoMap Plugin} {n : Nat} {p : Plugin} {vis : List Str}
    (h : checkCyclic m n (some p) vis = .clean) : Height m n p := by
  induction n generalizing p vis with
  | zero => simp [checkCyclic] at h
  | succ n ih =>
    unfold checkCyclic at h
    split at h
    · simp at h
    · rw [Chk.push_clean, Chk.first_clean] at h
      intro d hd
      have hc := h _ (List.mem_map.mpr ⟨d, hd, rfl⟩)
      cases hq : m.get? (name2key d) with
      | none =>
        rw [hq] at hc
        cases n <;> simp [checkCyclic] at hc
      | some q => exact ⟨q, rfl, ih (hq ▸ hc)⟩

/-- The recursion of the cycle check is never deeper than the number of plugins plus one. -/
theorem checkCyclic_fuel {m : GoMap Plugin} (hk : Keyed m) {n : Nat} {p : Option Plugin} {vis : List Str}
    (hp : ∀ q, p = some q → m.get? (name2key q.name) = some q)
    (hv : vis.Nodup) (hsub : ∀ k ∈ vis, k ∈ m.keys) (hn : m.size + 1 ≤ n + vis.length) :
    checkCyclic m n p vis ≠ .fuel := by
  induction n generalizing p vis with
  | zero =>
    have : vis.length ≤ m.keys.length := (List.subperm_of_subset hv hsub).length_le
    rw [← m.size_eq_keys] at this
    omega
  | succ n ih =>
    cases p with
    | none => simp [checkCyclic]
    | some p =>
      unfold checkCyclic
      split
      · simp
      · rename_i hnot
        rw [Ne, Chk.push_fuel]
        intro hf
        have hmem := Chk.first_mem (l := p.deps.map _) (by rw [hf]; simp)
        rw [hf] at hmem
        obtain ⟨d, _, hd⟩ := List.mem_map.mp hmem
        have hpk := hp p rfl
        refine ih ?_ ?_ ?_ ?_ hd
        · intro q hq
          have := hk _ _ hq
          rw [this]; exact hq
        · rw [List.nodup_cons]
          exact ⟨by simpa using hnot, hv⟩
        · intro k hkm
          rcases List.mem_cons.mp hkm with rfl | h
          · exact GoMap.mem_keys.mpr ⟨p, hpk⟩
          · exact hsub k h
        · simp only [List.length_cons]; omega

/-- More fuel does not change the answer once it is enough. -/
theorem checkCyclic_mono {m : GoMap Plugin} {n : Nat} {p : Option Plugin} {vis : List Str}
    (h : checkCyclic m n p vis ≠ .fuel) : checkCyclic m (n + 1) p vis = checkCyclic m n p vis := by
  induction n generalizing p vis with
  | zero => simp [checkCyclic] at h
  | succ n ih =>
    cases p with
    | none => simp [checkCyclic]
    | some p =>
      rw [checkCyclic, checkCyclic]
      rw [checkCyclic] at h
      split
      · rfl
      · rename_i hv
        rw [if_neg hv, Ne, Chk.push_fuel] at h
        congr 1
        -- compare the two lists element by element up to the first non-clean one
        generalize name2key p.name :: vis = vis' at *
        have : ∀ (ds : List Str),
            Chk.first (ds.map (fun d => checkCyclic m n (m.get? (name2key d)) vis')) ≠ .fuel →
            Chk.first (ds.map (fun d => checkCyclic m (n + 1) (m.get? (name2key d)) vis'))
              = Chk.first (ds.map (fun d => checkCyclic m n (m.get? (name2key d)) vis')) := by
          intro ds
          induction ds with
          | nil => intro _; rfl
          | cons d ds ihd =>
            intro hne
            rw [List.map_cons, List.map_cons] at *
            by_cases hf : checkCyclic m n (m.get? (name2key d)) vis' = .fuel
            · rw [hf] at hne; simp [Chk.first] at hne
            · rw [ih hf]
              cases hc : checkCyclic m n (m.get? (name2key d)) vis' with
              | clean => rw [hc] at hne; simp only [Chk.first] at *; exact ihd hne
              | cycle => rfl
              | nilDeref => rfl
              | fuel => exact absurd hc hf
        exact this p.deps h

/-- Consecutive names are dependency edges of `m`. -/
def Chain (m : GoMap Plugin) : List Str → Prop
  | a :: b :: r => (∃ p q, m.get? (name2key a) = some p ∧ p.name = a ∧ q.name = b ∧ DependsOn m p q) ∧ Chain m (b :: r)
  | _ => True

/-- The check dereferences nil only if some plugin names a dependency that is not there. -/
theorem checkCyclic_nil {m : GoMap Plugin} {n : Nat} {p : Plugin} {vis : List Str} (hp : ∃ k, m.get? k = some p)
    (h : checkCyclic m n (some p) vis = .nilDeref) : ∃ q, (∃ k, m.get? k = some q) ∧ ∃ d ∈ q.deps, m.get? (name2key d) = none := by
  induction n generalizing p vis with
  | zero => simp [checkCyclic] at h
  | succ n ih =>
    unfold checkCyclic at h
    split at h
    · cases h
    · have hfirst : ∀ l : List Chk, (Chk.first l).push p.name = .nilDeref → .nilDeref ∈ l := by
        intro l hl
        induction l with
        | nil => simp [Chk.first, Chk.push] at hl
        | cons c r ihr =>
          cases c with
          | clean => simp only [Chk.first] at hl; exact List.mem_cons_of_mem _ (ihr hl)
          | nilDeref => exact List.mem_cons_self ..
          | cycle l => simp [Chk.first, Chk.push] at hl
          | fuel => simp [Chk.first, Chk.push] at hl
      obtain ⟨d, hd, hc⟩ := List.mem_map.mp (hfirst _ h)
      cases hg : m.get? (name2key d) with
      | none => exact ⟨p, hp, d, hd, hg⟩
      | some q => rw [hg] at hc; exact ih ⟨_, hg⟩ hc

theorem checkCyclic_cycle {m : GoMap Plugin} (hk : Keyed m) {n : Nat} {p : Plugin} {vis : List Str} {names : List Str}
    (hp : m.get? (name2key p.name) = some p)
    (h : checkCyclic m n (some p) vis = .cycle names) :
    ∃ pre last, names = pre ++ [last] ∧ names.head? = some p.name ∧ Chain m names ∧
      (name2key last ∈ vis ∨ name2key last ∈ pre.map name2key) := by
  induction n generalizing p vis names with
  | zero => simp [checkCyclic] at h
  | succ n ih =>
    unfold checkCyclic at h
    split at h
    · rename_i hv
      simp only [Chk.cycle.injEq] at h
      subst h
      exact ⟨[], p.name, rfl, rfl, trivial, .inl (by simpa using hv)⟩
    · cases hf : Chk.first (p.deps.map (fun d => checkCyclic m n (m.get? (name2key d)) (name2key p.name :: vis))) with
      | clean => rw [hf] at h; simp [Chk.push] at h
      | nilDeref => rw [hf] at h; simp [Chk.push] at h
      | fuel => rw [hf] at h; simp [Chk.push] at h
      | cycle l =>
        rw [hf] at h
        simp only [Chk.push, Chk.cycle.injEq] at h
        subst h
        have hmem := Chk.first_mem (l := p.deps.map _) (by rw [hf]; simp)
        rw [hf] at hmem
        obtain ⟨d, hd, hc⟩ := List.mem_map.mp hmem
        cases hq : m.get? (name2key d) with
        | none =>
          rw [hq] at hc
          cases n <;> simp [checkCyclic] at hc
        | some q =>
          rw [hq] at hc
          have hqk := hk _ _ hq
          obtain ⟨pre, last, rfl, hhead, hchain, hin⟩ := ih (by rw [hqk]; exact hq) hc
          refine ⟨p.name :: pre, last, rfl, rfl, ?_, ?_⟩
          · cases pre with
            | nil =>
              simp only [List.nil_append, List.head?_cons, Option.some.injEq] at hhead
              exact ⟨⟨p, q, hp, rfl, hhead.symm, d, hd, hq⟩, hchain⟩
            | cons b r =>
              simp only [List.cons_append, List.head?_cons, Option.some.injEq] at hhead
              exact ⟨⟨p, q, hp, rfl, hhead.symm, d, hd, hq⟩, hchain⟩
          · rcases hin with hin | hin
            · rcases List.mem_cons.mp hin with hin | hin
              · exact .inr (by simp [hin])
              · exact .inl hin
            · exact .inr (by rw [List.map_cons]; exact List.mem_cons_of_mem _ hin)

/-! ### ordering -/

theorem placed_iff {a : List Plugin} {p : Plugin} :
    placed a p = true ↔ ∃ q ∈ a, name2key q.name = name2key p.name := by
  simp [placed]

/-- Invariant of the ordering: members of the map, distinct keys, dependencies before dependents. -/
structure OrderInv (m : GoMap Plugin) (a : List Plugin) : Prop where
  mem : ∀ p ∈ a, m.get? (name2key p.name) = some p
  nodup : (a.map (fun p => name2key p.name)).Nodup
  topo : Topological m a

theorem placed_get {m : GoMap Plugin} {a : List Plugin} (ha : OrderInv m a) {p : Plugin}
    (hp : m.get? (name2key p.name) = some p) : placed a p = true ↔ p ∈ a := by
  rw [placed_iff]
  constructor
  · rintro ⟨q, hq, hk⟩
    have := ha.mem q hq
    rw [hk, hp] at this
    cases this; exact hq
  · intro h; exact ⟨p, h, rfl⟩

theorem depsPlaced_iff {m : GoMap Plugin} (hk : Keyed m) {a : List Plugin} (ha : OrderInv m a) {p : Plugin} :
    depsPlaced m a p = true ↔ ∀ d ∈ p.deps, ∃ q ∈ a, m.get? (name2key d) = some q := by
  unfold depsPlaced
  rw [List.all_eq_true]
  constructor
  · intro h d hd
    have := h d hd
    cases hq : m.get? (name2key d) with
    | none => simp [hq] at this
    | some q =>
      rw [hq] at this
      have hqk := hk _ _ hq
      exact ⟨q, (placed_get ha (by rw [hqk]; exact hq)).mp this, rfl⟩
  · intro h d hd
    obtain ⟨q, hqa, hq⟩ := h d hd
    rw [hq]
    exact placed_iff.mpr ⟨q, hqa, rfl⟩

theorem orderStep_inv {m : GoMap Plugin} (hk : Keyed m) {a : List Plugin} (ha : OrderInv m a) (k : Str) :
    OrderInv m (orderStep m a k) ∧ ∃ r, orderStep m a k = a ++ r := by
  unfold orderStep
  cases hp : m.get? k with
  | none => exact ⟨ha, [], by simp⟩
  | some p =>
    dsimp only
    split
    · exact ⟨ha, [], by simp⟩
    · rename_i hnp
      split
      · rename_i hd
        have hpk := hk _ _ hp
        have hpm : m.get? (name2key p.name) = some p := by rw [hpk]; exact hp
        refine ⟨⟨?_, ?_, ?_⟩, [p], rfl⟩
        · intro q hq
          rcases List.mem_append.mp hq with hq | hq
          · exact ha.mem q hq
          · simp at hq; subst hq; exact hpm
        · rw [List.map_append, List.nodup_append]
          refine ⟨ha.nodup, by simp, ?_⟩
          intro x hx y hy
          simp at hy; subst hy
          intro hxy; subst hxy
          obtain ⟨q, hq, hqk⟩ := List.mem_map.mp hx
          exact hnp (placed_iff.mpr ⟨q, hq, hqk⟩)
        · intro before x after heq d hdx
          rcases List.append_eq_append_iff.mp heq with ⟨c, hb, hc⟩ | ⟨c, hb, hc⟩
          · cases c with
            | nil =>
              simp at hc hb
              obtain ⟨rfl, rfl⟩ := hc
              subst hb
              exact (depsPlaced_iff hk ha).mp hd d hdx
            | cons y ys =>
              simp at hc
          · cases c with
            | nil =>
              simp at hc hb
              obtain ⟨rfl, rfl⟩ := hc
              subst hb
              exact (depsPlaced_iff hk ha).mp hd d hdx
            | cons y ys =>
              simp at hc
              obtain ⟨rfl, rfl⟩ := hc
              exact ha.topo before x ys hb d hdx
      · exact ⟨ha, [], by simp⟩

theorem orderFold_inv {m : GoMap Plugin} (hk : Keyed m) (keys : List Str) {a : List Plugin} (ha : OrderInv m a) :
    OrderInv m (keys.foldl (orderStep m) a) ∧ ∃ r, keys.foldl (orderStep m) a = a ++ r := by
  induction keys generalizing a with
  | nil => exact ⟨ha, [], by simp⟩
  | cons k ks ih =>
    obtain ⟨h1, r1, e1⟩ := orderStep_inv hk ha k
    obtain ⟨h2, r2, e2⟩ := ih h1
    exact ⟨h2, r1 ++ r2, by rw [List.foldl_cons, e2, e1, List.append_assoc]⟩

/-- A round places every plugin of `keys` whose dependencies were placed before the round. -/
theorem orderFold_places {m : GoMap Plugin} (hk : Keyed m) {keys : List Str} {a : List Plugin} (ha : OrderInv m a)
    {k : Str} {p : Plugin} (hkm : k ∈ keys) (hp : m.get? k = some p)
    (hd : ∀ d ∈ p.deps, ∃ q ∈ a, m.get? (name2key d) = some q) :
    p ∈ keys.foldl (orderStep m) a := by
  induction keys generalizing a with
  | nil => simp at hkm
  | cons k' ks ih =>
    obtain ⟨h1, r1, e1⟩ := orderStep_inv hk ha k'
    rw [List.foldl_cons]
    by_cases hkk : k = k'
    · subst hkk
      have hpk := hk _ _ hp
      have hpm : m.get? (name2key p.name) = some p := by rw [hpk]; exact hp
      have hin : p ∈ orderStep m a k := by
        unfold orderStep
        rw [hp]
        dsimp only
        split
        · rename_i hpl; exact (placed_get ha hpm).mp hpl
        · rw [if_pos ((depsPlaced_iff hk ha).mpr hd)]; simp
      obtain ⟨_, r2, e2⟩ := orderFold_inv hk ks h1
      rw [e2]; exact List.mem_append_left _ hin
    · have : k ∈ ks := by
        rcases List.mem_cons.mp hkm with h | h
        · exact absurd h hkk
        · exact h
      refine ih h1 this (fun d hdm => ?_)
      obtain ⟨q, hq, hqg⟩ := hd d hdm
      exact ⟨q, by rw [e1]; exact List.mem_append_left _ hq, hqg⟩

/-- In a graph of bounded height, an unplaced plugin leads to an unplaced plugin whose dependencies are all
placed. -/
theorem exists_ready {m : GoMap Plugin} (hk : Keyed m) {a : List Plugin} (n : Nat) (p : Plugin)
    (hh : Height m n p) (hp : m.get? (name2key p.name) = some p) (hpa : p ∉ a) :
    ∃ q, q ∉ a ∧ m.get? (name2key q.name) = some q ∧ Height m n q ∧
      ∀ d ∈ q.deps, ∃ r ∈ a, m.get? (name2key d) = some r := by
  induction n generalizing p with
  | zero => exact absurd hh id
  | succ n ih =>
      have h := hh
      by_cases hall : ∀ d ∈ p.deps, ∃ r ∈ a, m.get? (name2key d) = some r
      · exact ⟨p, hpa, hp, h, hall⟩
      · simp only [Classical.not_forall] at hall
        obtain ⟨d, hd, hno⟩ := hall
        obtain ⟨q, hq, hqh⟩ := h d hd
        have hqk := hk _ _ hq
        have hqa : q ∉ a := fun hqa => hno ⟨q, hqa, hq⟩
        obtain ⟨r, hr1, hr2, hr3, hr4⟩ := ih q hqh (by rw [hqk]; exact hq) hqa
        exact ⟨r, hr1, hr2, (heightMono hr3), hr4⟩
where
  heightMono {m : GoMap Plugin} {n : Nat} {p : Plugin} (h : Height m n p) : Height m (n + 1) p := by
    induction n generalizing p with
    | zero => exact absurd h id
    | succ n ih => exact fun d hd => let ⟨q, hq, hh⟩ := h d hd; ⟨q, hq, ih hh⟩

theorem vals_nodupKeys {m : GoMap Plugin} (hk : Keyed m) : (m.vals.map (fun p => name2key p.name)) = m.keys := by
  unfold GoMap.vals GoMap.keys
  rw [List.map_map]
  apply List.map_congr_left
  intro e he
  exact hk _ _ (GoMap.get?_eq_some.mpr he)

theorem vals_nodup {m : GoMap Plugin} (hk : Keyed m) : m.vals.Nodup := by
  have := m.keys_nodup
  rw [← vals_nodupKeys hk] at this
  exact this.of_map

/-- A topological list as long as the map contains the whole map. -/
theorem order_complete {m : GoMap Plugin} (hk : Keyed m) {a : List Plugin} (ha : OrderInv m a)
    (hl : a.length = m.size) : a.Perm m.vals := by
  have hn : a.Nodup := ha.nodup.of_map
  have hsub : ∀ p ∈ a, p ∈ m.vals := fun p hp => GoMap.mem_vals.mpr ⟨_, ha.mem p hp⟩
  have := List.subperm_of_subset hn hsub
  exact this.perm_of_length_le (by rw [← m.size_eq_vals, hl]; exact Nat.le_refl _)

theorem order_length_le {m : GoMap Plugin} {a : List Plugin} (ha : OrderInv m a) : a.length ≤ m.size := by
  have hn : a.Nodup := ha.nodup.of_map
  have hsub : ∀ p ∈ a, p ∈ m.vals := fun p hp => GoMap.mem_vals.mpr ⟨_, ha.mem p hp⟩
  have := (List.subperm_of_subset hn hsub).length_le
  rw [← m.size_eq_vals] at this
  exact this

theorem orderLoop_ok {m : GoMap Plugin} (hk : Keyed m) {keys : List Str} (hh : ∀ k p, m.get? k = some p → Height m (cyclicFuel m) p)
    (hkeys : ∀ k p, m.get? k = some p → p.deps ≠ [] → k ∈ keys)
    {i : Nat} {a : List Plugin} (ha : OrderInv m a)
    (hbase : ∀ k p, m.get? k = some p → p.deps = [] → p ∈ a)
    (hi : m.size + 1 ≤ i + a.length) :
    ∃ a', orderLoop m keys i a = some a' ∧ OrderInv m a' ∧ a'.length = m.size := by
  induction i generalizing a with
  | zero => have := order_length_le ha; omega
  | succ i ih =>
    unfold orderLoop
    split
    · exact ⟨a, rfl, ha, by assumption⟩
    · rename_i hne
      obtain ⟨h1, r, hr⟩ := orderFold_inv hk keys ha
      have hlt : a.length < m.size := Nat.lt_of_le_of_ne (order_length_le ha) hne
      -- some plugin is unplaced
      have : ∃ p, p ∈ m.vals ∧ p ∉ a := by
        by_cases hex : ∃ p, p ∈ m.vals ∧ p ∉ a
        · exact hex
        · exfalso
          have hsub : ∀ p ∈ m.vals, p ∈ a := fun p hp => Classical.byContradiction (fun hpa => hex ⟨p, hp, hpa⟩)
          have := (List.subperm_of_subset (vals_nodup hk) hsub).length_le
          rw [← m.size_eq_vals] at this
          omega
      obtain ⟨p, hpv, hpa⟩ := this
      obtain ⟨k, hkp⟩ := GoMap.mem_vals.mp hpv
      have hpk := hk _ _ hkp
      obtain ⟨q, hqa, hqm, _, hqd⟩ := exists_ready hk _ p (hh k p hkp) (by rw [hpk]; exact hkp) hpa
      have hqdeps : q.deps ≠ [] := fun h => hqa (hbase _ q hqm h)
      have hplaced := orderFold_places hk ha (hkeys _ q hqm hqdeps) hqm hqd
      have hlen : a.length < (keys.foldl (orderStep m) a).length := by
        rw [hr] at hplaced ⊢
        rw [List.length_append]
        rcases List.mem_append.mp hplaced with h | h
        · exact absurd h hqa
        · have := List.length_pos_of_mem h; omega
      refine ih h1 (fun k p hp hd => ?_) (by omega)
      rw [hr]; exact List.mem_append_left _ (hbase k p hp hd)

theorem orderLoop_some {m : GoMap Plugin} (hk : Keyed m) {keys : List Str} {i : Nat} {a a' : List Plugin}
    (ha : OrderInv m a) (h : orderLoop m keys i a = some a') : OrderInv m a' ∧ a'.length = m.size := by
  induction i generalizing a with
  | zero => simp [orderLoop] at h
  | succ i ih =>
    unfold orderLoop at h
    split at h
    · simp at h; subst h; exact ⟨ha, by assumption⟩
    · exact ih (orderFold_inv hk keys ha).1 h

theorem order_start {m : GoMap Plugin} (hk : Keyed m) (it : Iter) :
    OrderInv m (((m.rangeKV it .order).filter (fun e => e.2.deps.isEmpty)).map Prod.snd) := by
  have hmem : ∀ p ∈ ((m.rangeKV it .order).filter (fun e => e.2.deps.isEmpty)).map Prod.snd,
      m.get? (name2key p.name) = some p ∧ p.deps = [] := by
    intro p hp
    obtain ⟨⟨k, q⟩, he, rfl⟩ := List.mem_map.mp hp
    obtain ⟨he, hd⟩ := List.mem_filter.mp he
    have hg := GoMap.mem_rangeKV.mp he
    refine ⟨?_, by simpa using hd⟩
    have := hk _ _ hg
    simp only [this]; exact hg
  refine ⟨fun p hp => (hmem p hp).1, ?_, ?_⟩
  · have hsub : (((m.rangeKV it .order).filter (fun e => e.2.deps.isEmpty)).map Prod.snd).Sublist
        ((m.rangeKV it .order).map Prod.snd) := List.Sublist.map _ List.filter_sublist
    refine (hsub.map _).nodup ?_
    have := ((GoMap.rangeKV_vals_perm it .order m).map (fun p => name2key p.name))
    rw [vals_nodupKeys hk] at this
    exact this.symm.nodup m.keys_nodup
  · intro before p after heq d hd
    have := (hmem p (by rw [heq]; simp)).2
    rw [this] at hd; simp at hd

/-- What a successful ordering returns. -/
theorem orderPlugins_some {m : GoMap Plugin} (hk : Keyed m) {it : Iter} {a : List Plugin}
    (h : orderPlugins it m = some a) : a.Perm m.vals ∧ Topological m a := by
  obtain ⟨h1, h2⟩ := orderLoop_some hk (order_start hk it) h
  exact ⟨order_complete hk h1 h2, h1.topo⟩

/-- The ordering succeeds on every map accepted by the cycle check. -/
theorem orderPlugins_total {m : GoMap Plugin} (hk : Keyed m) (it : Iter)
    (hh : ∀ k p, m.get? k = some p → p.deps ≠ [] → checkCyclic m (cyclicFuel m) (some p) [] = .clean) :
    ∃ a, orderPlugins it m = some a := by
  have hheight : ∀ k p, m.get? k = some p → Height m (cyclicFuel m) p := by
    intro k p hp
    by_cases hd : p.deps = []
    · unfold cyclicFuel
      exact fun d hdm => by rw [hd] at hdm; simp at hdm
    · exact checkCyclic_clean (hh k p hp hd)
  obtain ⟨a', ha', _⟩ := orderLoop_ok hk (keys := sortStrings (((m.rangeKV it .order).filter (fun e => !e.2.deps.isEmpty)).map Prod.fst))
    hheight
    (by
      intro k p hp hd
      rw [mem_sortStrings]
      exact List.mem_map.mpr ⟨(k, p), List.mem_filter.mpr ⟨GoMap.mem_rangeKV.mpr hp, by simpa using hd⟩, rfl⟩)
    (i := m.size + 1) (order_start hk it)
    (by
      intro k p hp hd
      exact List.mem_map.mpr ⟨(k, p), List.mem_filter.mpr ⟨GoMap.mem_rangeKV.mpr hp, by simpa using hd⟩, rfl⟩)
    (by omega)
  exact ⟨a', ha'⟩

end Hotswap
