import Verif.Model.Cost
import Verif.Spec.Cost
import Verif.Proofs.Graph
import Verif.Proofs.Hoare

/-! Counting the calls of the cycle check. -/

namespace Hotswap

variable [GoRuntime]

omit [GoRuntime] in
theorem firstCounted_fst (l : List (Chk × Nat)) : (Chk.firstCounted l).1 = Chk.first (l.map Prod.fst) := by
  induction l with
  | nil => rfl
  | cons a r ih => obtain ⟨c, n⟩ := a; cases c <;> simp [Chk.firstCounted, Chk.first, ih]

omit [GoRuntime] in
theorem firstCounted_snd {l : List (Chk × Nat)} (h : ∀ c ∈ l, c.1 = .clean) : (Chk.firstCounted l).2 = (l.map Prod.snd).sum := by
  induction l with
  | nil => rfl
  | cons a r ih =>
    obtain ⟨c, n⟩ := a
    have : c = .clean := h (c, n) (by simp)
    subst this
    simp [Chk.firstCounted, ih (fun c hc => h c (List.mem_cons_of_mem _ hc))]

theorem checkCyclicCounted_fst (m : GoMap Plugin) (n : Nat) : ∀ (p : Option Plugin) (vis : List Str), (checkCyclicCounted m n p vis).1 = checkCyclic m n p vis := by
  induction n with
  | zero => intro p vis; rfl
  | succ n ih =>
    intro p vis
    cases p with
    | none => rfl
    | some p =>
      unfold checkCyclicCounted checkCyclic
      split
      · rfl
      · dsimp only
        rw [firstCounted_fst, List.map_map]
        congr 3
        funext d
        exact ih _ _

/-- The paths that start at `p`, as far as `n` goes. -/
def walks (m : GoMap Plugin) : Nat → Plugin → List (List Nat)
  | 0, _ => []
  | n + 1, p => [] :: p.deps.zipIdx.flatMap (fun e => match m.get? (name2key e.1) with
    | none => []
    | some q => (walks m n q).map (e.2 :: ·))

theorem mem_walks {m : GoMap Plugin} {n : Nat} : ∀ {p : Plugin}, Height m n p → ∀ w, w ∈ walks m n p ↔ Walk m p w := by
  induction n with
  | zero => intro p h; exact h.elim
  | succ n ih =>
    intro p h w
    unfold walks
    rw [List.mem_cons, List.mem_flatMap]
    constructor
    · rintro (rfl | ⟨⟨d, i⟩, hd, hw⟩)
      · exact .stay p
      · have hd := List.mem_zipIdx_iff_getElem?.mp hd
        dsimp only at hd hw
        obtain ⟨q, hq, hh⟩ := h d (List.mem_of_getElem? hd)
        rw [hq] at hw
        obtain ⟨w', hw', rfl⟩ := List.mem_map.mp hw
        exact .follow hd hq ((ih hh w').mp hw')
    · intro hw
      cases hw with
      | stay => exact .inl rfl
      | @follow _ q i d w' hd hq hw =>
        refine .inr ⟨(d, i), List.mem_zipIdx_iff_getElem?.mpr hd, ?_⟩
        obtain ⟨q', hq', hh⟩ := h d (List.mem_of_getElem? hd)
        rw [hq] at hq'; cases hq'
        dsimp only
        rw [hq]
        exact List.mem_map.mpr ⟨w', (ih hh w').mpr hw, rfl⟩

theorem walks_nodup (m : GoMap Plugin) (n : Nat) : ∀ p : Plugin, (walks m n p).Nodup := by
  induction n with
  | zero => intro p; exact List.nodup_nil
  | succ n ih =>
    intro p
    unfold walks
    rw [List.nodup_cons]
    constructor
    · intro h
      obtain ⟨⟨d, i⟩, _, hw⟩ := List.mem_flatMap.mp h
      dsimp only at hw
      split at hw
      · cases hw
      · obtain ⟨_, _, h⟩ := List.mem_map.mp hw; cases h
    · rw [List.nodup_flatMap]
      constructor
      · rintro ⟨d, i⟩ _
        dsimp only
        split
        · exact List.nodup_nil
        · exact (ih _).map (fun a b h => by injection h)
      · have hz : (p.deps.zipIdx.map Prod.snd).Nodup := by
          rw [List.zipIdx_map_snd]; exact List.nodup_range'
        refine ((List.pairwise_map.mp hz).imp ?_)
        rintro ⟨d, i⟩ ⟨d', j⟩ hij w h1 h2
        dsimp only [Function.onFun] at h1 h2 hij
        split at h1
        · cases h1
        · split at h2
          · cases h2
          · obtain ⟨_, _, rfl⟩ := List.mem_map.mp h1
            obtain ⟨_, _, h⟩ := List.mem_map.mp h2
            injection h with h _
            exact hij h.symm

theorem walks_count {m : GoMap Plugin} {n : Nat} : ∀ {p : Plugin} {vis : List Str}, checkCyclic m n (some p) vis = .clean →
    (checkCyclicCounted m n (some p) vis).2 = (walks m n p).length := by
  induction n with
  | zero => intro p vis h; cases h
  | succ n ih =>
    intro p vis h
    have hh := checkCyclic_clean h
    unfold checkCyclic at h
    unfold checkCyclicCounted walks
    split at h
    · cases h
    · rename_i hv
      rw [if_neg hv]
      rw [Chk.push_clean, Chk.first_clean] at h
      have hc : ∀ d ∈ p.deps, checkCyclic m n (m.get? (name2key d)) (name2key p.name :: vis) = .clean := fun d hd => h _ (List.mem_map.mpr ⟨d, hd, rfl⟩)
      dsimp only
      rw [firstCounted_snd, List.length_cons, List.length_flatMap, Nat.add_comm, List.map_map]
      · congr 1
        have : p.deps = p.deps.zipIdx.map Prod.fst := by simp
        conv => lhs; rw [this]
        rw [List.map_map]
        congr 1
        refine List.map_congr_left ?_
        rintro ⟨d, i⟩ hd
        have hd := List.mem_of_getElem? (List.mem_zipIdx_iff_getElem?.mp hd)
        dsimp only [Function.comp] at hd ⊢
        obtain ⟨q, hq, _⟩ := hh d hd
        have := hc d hd
        rw [hq] at this ⊢
        rw [ih this]
        simp
      · intro c hcm
        obtain ⟨d, hd, rfl⟩ := List.mem_map.mp hcm
        rw [checkCyclicCounted_fst]
        exact hc d hd

/-- The loop of pluginManager.go:293-305 with its actions. -/
theorem forEach_act (l : List (Str × Plugin)) (g : Str × Plugin → Chk) (s : LoadSt) :
    M.forEach l (fun e => if e.2.deps = [] then M.pure () else (g e).act) s = (Chk.first ((l.filter (fun e => !e.2.deps.isEmpty)).map g)).act s := by
  induction l with
  | nil => rfl
  | cons e r ih =>
    unfold M.forEach M.bind
    by_cases hd : e.2.deps = []
    · simp only [hd, if_true, M.pure]
      rw [ih, List.filter_cons_of_neg (by simp [hd])]
    · simp only [hd, if_false]
      rw [List.filter_cons_of_pos (by simpa using hd), List.map_cons]
      cases hg : g e <;> simp only [Chk.act, Chk.first, M.pure, M.throw, M.panic]
      exact ih

theorem checkAllCyclic_act (it : Iter) (s : LoadSt) : checkAllCyclic it s = (checkAllCounted it s.pm.pluginMap).1.act s := by
  unfold checkAllCounted
  rw [firstCounted_fst, List.map_map]
  have : (Prod.fst ∘ fun e : Str × Plugin => checkCyclicCounted s.pm.pluginMap (cyclicFuel s.pm.pluginMap) (some e.2) []) =
      fun e => checkCyclic s.pm.pluginMap (cyclicFuel s.pm.pluginMap) (some e.2) [] := by
    funext e; exact checkCyclicCounted_fst _ _ _ _
  rw [this, ← forEach_act]
  unfold checkAllCyclic
  change M.forEach _ _ s = _
  congr 2

/-- In a manager whose plugins are ordered the check finds nothing. -/
theorem checkCyclic_topo {m : GoMap Plugin} {l : List Plugin} (ht : Topological m l) (hn : (l.map (fun p => name2key p.name)).Nodup) (n : Nat) :
    ∀ (before : List Plugin) (p : Plugin) (after : List Plugin) (vis : List Str), l = before ++ p :: after → before.length < n →
      (∀ q ∈ before ++ [p], name2key q.name ∉ vis) → checkCyclic m n (some p) vis = .clean := by
  induction n with
  | zero => intro _ _ _ _ _ h; omega
  | succ n ih =>
    intro before p after vis hl hlen hvis
    unfold checkCyclic
    have hp := hvis p (by simp)
    rw [if_neg (by simpa using hp), Chk.push_clean, Chk.first_clean]
    intro c hc
    obtain ⟨d, hd, rfl⟩ := List.mem_map.mp hc
    obtain ⟨q, hq, hg⟩ := ht before p after hl d hd
    rw [hg]
    obtain ⟨b1, b2, rfl⟩ := List.append_of_mem hq
    refine ih b1 q (b2 ++ p :: after) _ (by rw [hl]; simp) (by simp at hlen; omega) ?_
    intro r hr hmem
    have hrb : r ∈ b1 ++ q :: b2 := by
      rcases List.mem_append.mp hr with h | h
      · exact List.mem_append_left _ h
      · simp at h; subst h; simp
    rcases List.mem_cons.mp hmem with h | h
    · rw [hl, List.map_append, List.nodup_append] at hn
      exact hn.2.2 _ (List.mem_map.mpr ⟨r, hrb, rfl⟩) _ (by simp) h
    · exact hvis r (List.mem_append_left _ hrb) h

theorem sound_clean {n : Nat} {pm : Manager} (g : SoundManager n pm) {k : Str} {p : Plugin} (hp : pm.pluginMap.get? k = some p) :
    checkCyclic pm.pluginMap (cyclicFuel pm.pluginMap) (some p) [] = .clean := by
  have hmem : p ∈ pm.ordered := g.ordered.mem_iff.mpr (GoMap.mem_vals.mpr ⟨k, hp⟩)
  obtain ⟨b, a, hl⟩ := List.append_of_mem hmem
  refine checkCyclic_topo g.topo ?_ _ b p a [] hl ?_ (by simp)
  · have h1 : (pm.ordered.map (fun p => name2key p.name)).Perm (pm.pluginMap.vals.map (fun p => name2key p.name)) := g.ordered.map _
    rw [h1.nodup_iff]
    have : pm.pluginMap.vals.map (fun p => name2key p.name) = pm.pluginMap.keys := by
      unfold GoMap.vals GoMap.keys
      rw [List.map_map]
      refine List.map_congr_left ?_
      rintro ⟨k, q⟩ hq
      exact g.keyed k q (GoMap.get?_eq_some.mpr hq)
    rw [this]; exact pm.pluginMap.nodup
  · have := g.ordered.length_eq
    rw [hl, ← GoMap.size_eq_vals] at this
    simp at this
    unfold cyclicFuel; omega

/-- The total when nothing is found. -/
theorem checkAll_count {m : GoMap Plugin} (it : Iter) (hc : ∀ k p, m.get? k = some p → p.deps ≠ [] → checkCyclic m (cyclicFuel m) (some p) [] = .clean) :
    ∃ L, ListsAllWalks m L ∧ checkAllCounted it m = (.clean, L.length) := by
  have hl : ∀ e ∈ (m.rangeKV it .cyclic).filter (fun e => !e.2.deps.isEmpty), m.get? e.1 = some e.2 ∧ e.2.deps ≠ [] := by
    intro e he
    rw [List.mem_filter] at he
    exact ⟨GoMap.mem_rangeKV.mp he.1, by simpa using he.2⟩
  have hin : ∀ k p, m.get? k = some p → p.deps ≠ [] → (k, p) ∈ (m.rangeKV it .cyclic).filter (fun e => !e.2.deps.isEmpty) := by
    intro k p hp hd
    rw [List.mem_filter]
    exact ⟨GoMap.mem_rangeKV.mpr hp, by simpa using hd⟩
  have hnd : ((m.rangeKV it .cyclic).filter (fun e => !e.2.deps.isEmpty)).Nodup := ((GoMap.rangeKV_perm it _ m).nodup_iff.mpr (List.Nodup.of_map _ m.nodup)).filter _
  unfold checkAllCounted
  generalize (m.rangeKV it .cyclic).filter (fun e => !e.2.deps.isEmpty) = l at *
  refine ⟨l.flatMap (fun e => (walks m (cyclicFuel m) e.2).map (fun w => (e.1, w))), ⟨?_, ?_⟩, ?_⟩
  · rw [List.nodup_flatMap]
    constructor
    · rintro ⟨k, p⟩ _
      exact (walks_nodup m _ p).map (fun a b h => by injection h)
    · refine hnd.imp_of_mem ?_
      rintro ⟨k, p⟩ ⟨k', p'⟩ h1 h2 hne x hx hx'
      obtain ⟨w, _, rfl⟩ := List.mem_map.mp hx
      obtain ⟨w', _, h⟩ := List.mem_map.mp hx'
      injection h with hk _
      dsimp only at hk
      subst hk
      have e1 := (hl _ h1).1
      have e2 := (hl _ h2).1
      dsimp only at e1 e2
      rw [e1] at e2; cases e2
      exact hne rfl
  · intro k w
    rw [List.mem_flatMap]
    constructor
    · rintro ⟨⟨k', p⟩, he, hw⟩
      obtain ⟨w', hw', h⟩ := List.mem_map.mp hw
      cases h
      obtain ⟨h1, h2⟩ := hl _ he
      exact ⟨p, h1, h2, (mem_walks (checkCyclic_clean (hc _ _ h1 h2)) _).mp hw'⟩
    · rintro ⟨p, hp, hd, hw⟩
      exact ⟨(k, p), hin k p hp hd, List.mem_map.mpr ⟨w, (mem_walks (checkCyclic_clean (hc k p hp hd)) w).mpr hw, rfl⟩⟩
  · have hcl : ∀ c ∈ l.map (fun e => checkCyclicCounted m (cyclicFuel m) (some e.2) []), c.1 = .clean := by
      intro c hcm
      obtain ⟨e, he, rfl⟩ := List.mem_map.mp hcm
      rw [checkCyclicCounted_fst]
      exact hc _ _ (hl e he).1 (hl e he).2
    refine Prod.ext ?_ ?_
    · rw [firstCounted_fst, Chk.first_clean]
      intro c hcm
      obtain ⟨x, hx, rfl⟩ := List.mem_map.mp hcm
      exact hcl x hx
    · rw [firstCounted_snd hcl, List.map_map, List.length_flatMap]
      congr 1
      refine List.map_congr_left ?_
      intro e he
      simp only [Function.comp, List.length_map]
      exact walks_count (hc _ _ (hl e he).1 (hl e he).2)

end Hotswap
