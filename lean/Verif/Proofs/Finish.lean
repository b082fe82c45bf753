import Verif.Proofs.Import
import Verif.Spec.Load

/-! From dependencies to `OnInit`: `finishLoad`. -/

namespace Hotswap

variable [GoRuntime]

open M

theorem checkAllCyclic_wp {s : LoadSt} (it : Iter) (hk : Keyed s.pm.pluginMap)
    (hres : ∀ k p, s.pm.pluginMap.get? k = some p → p.unchanged = false → ∀ d ∈ p.deps, s.pm.pluginMap.get? (name2key d) ≠ none)
    (hall : ∀ k p, s.pm.pluginMap.get? k = some p → p.unchanged = false → Resolved s.pm.pluginMap p) :
    wp (checkAllCyclic it)
      (fun _ s' => s' = s ∧ ∀ k p, s.pm.pluginMap.get? k = some p → p.deps ≠ [] →
        checkCyclic s.pm.pluginMap (cyclicFuel s.pm.pluginMap) (some p) [] = .clean)
      (fun f s' => s' = s ∧ FailOK s.pm f) s := by
  unfold checkAllCyclic
  simp only [wp_bind, wp_get]
  refine wp_forEach _ _ (fun done s' => s' = s ∧ ∀ e ∈ done, e.2.deps ≠ [] →
        checkCyclic s.pm.pluginMap (cyclicFuel s.pm.pluginMap) (some e.2) [] = .clean) _ ?_ ?_ ?_
  · exact ⟨rfl, by simp⟩
  · rintro done ⟨k, p⟩ rest s' hl ⟨rfl, hdone⟩
    have hp : s'.pm.pluginMap.get? k = some p := GoMap.mem_rangeKV.mp (by rw [hl]; simp)
    have hpk := hk _ _ hp
    dsimp only
    split
    · rename_i hd
      refine ⟨rfl, ?_⟩
      intro e he
      rcases List.mem_append.mp he with he | he
      · exact hdone e he
      · simp at he; subst he; intro h; exact absurd hd h
    · split
      · rename_i hc
        refine ⟨rfl, ?_⟩
        intro e he
        rcases List.mem_append.mp he with he | he
        · exact hdone e he
        · simp at he; subst he; intro _; exact hc
      · rename_i names hc
        simp only [wp_throw]
        obtain ⟨pre, last, hn, _, hch, hin⟩ := checkCyclic_cycle hk (by rw [hpk]; exact hp) hc
        refine ⟨trivial, ⟨pre, last, hn, hch, ?_⟩, hall⟩
        rcases hin with hin | hin
        · simp at hin
        · exact hin
      · rename_i hc
        refine ⟨rfl, ?_⟩
        obtain ⟨q, hq, d, hd, hn⟩ := checkCyclic_nil (p := p) ⟨k, hp⟩ hc
        obtain ⟨k', hq'⟩ := hq
        refine ⟨q, GoMap.mem_vals.mpr ⟨k', hq'⟩, ?_, d, hd, hn⟩
        cases hu : q.unchanged with
        | true => rfl
        | false => exact absurd hn (hres k' q hq' hu d hd)
      · rename_i hc
        exfalso
        refine checkCyclic_fuel hk ?_ (by simp) (by simp) (by simp [cyclicFuel]) hc
        intro q hq; cases hq; rw [hpk]; exact hp
  · rintro s' ⟨rfl, h⟩
    refine ⟨rfl, fun k p hp hd => ?_⟩
    exact h (k, p) (GoMap.mem_rangeKV.mpr hp) hd

theorem checkRebuilt_wp {s : LoadSt} (it : Iter) :
    wp (checkRebuilt it)
      (fun _ s' => s' = s ∧ ∀ k p, s.pm.pluginMap.get? k = some p → p.unchanged = true →
        ∀ d ∈ p.deps, ∃ q, s.pm.pluginMap.get? (name2key d) = some q ∧ q.unchanged = true)
      (fun f s' => s' = s ∧ FailOK s.pm f) s := by
  unfold checkRebuilt
  simp only [wp_bind, wp_get]
  refine wp_forEach _ _ (fun done s' => s' = s ∧ ∀ e ∈ done, e.2.unchanged = true →
        ∀ d ∈ e.2.deps, ∃ q, s.pm.pluginMap.get? (name2key d) = some q ∧ q.unchanged = true) _ ?_ ?_ ?_
  · exact ⟨rfl, by simp⟩
  · rintro done ⟨k, p⟩ rest s' hl ⟨rfl, hdone⟩
    have hp : s'.pm.pluginMap.get? k = some p := GoMap.mem_rangeKV.mp (by rw [hl]; simp)
    dsimp only
    split
    · rename_i hu
      refine wp_forEach _ _ (fun dn s'' => s'' = s' ∧ ∀ d ∈ dn, ∃ q, s'.pm.pluginMap.get? (name2key d) = some q ∧ q.unchanged = true)
        _ ⟨rfl, by simp⟩ ?_ ?_
      · rintro dn d rst s'' hl2 ⟨rfl, hdn⟩
        cases hq : s''.pm.pluginMap.get? (name2key d) with
        | none => exact ⟨rfl, p, GoMap.mem_vals.mpr ⟨k, hp⟩, hu, d, by rw [hl2]; simp, hq⟩
        | some q =>
          dsimp only
          cases hqu : q.unchanged with
          | true =>
            simp only [if_true, wp_mpure]
            refine ⟨trivial, ?_⟩
            intro x hx
            rcases List.mem_append.mp hx with hx | hx
            · exact hdn x hx
            · simp at hx; subst hx; exact ⟨q, hq, hqu⟩
          | false =>
            simp only [Bool.false_eq_true, if_false, wp_throw]
            exact ⟨trivial, p, q, rfl, rfl, GoMap.mem_vals.mpr ⟨k, hp⟩, hu, hqu, d, by rw [hl2]; simp, hq⟩
      · rintro s'' ⟨rfl, h⟩
        refine ⟨rfl, ?_⟩
        intro e he
        rcases List.mem_append.mp he with he | he
        · exact hdone e he
        · simp at he; subst he; intro _; exact h
    · rename_i hu
      refine ⟨rfl, ?_⟩
      intro e he
      rcases List.mem_append.mp he with he | he
      · exact hdone e he
      · simp at he; subst he; intro h; exact absurd h hu
  · rintro s' ⟨rfl, h⟩
    refine ⟨rfl, fun k p hp hd => ?_⟩
    exact h (k, p) (GoMap.mem_rangeKV.mpr hp) hd

/-- The keys in the order of the import phase. -/
def importKeys (m : GoMap Plugin) (it : Iter) : List Str := sortStrings (m.range it .depKeys)

/-- State after `initDeps` succeeded. -/
structure DepsDone (s0 : LoadSt) (it : Iter) (s : LoadSt) : Prop where
  next : s.next = s0.next
  pm : s.pm = { s0.pm with pluginMap := s.pm.pluginMap, ordered := s.pm.ordered }
  same : SameMap s0.pm.pluginMap s.pm.pluginMap
  acts : s.acts = s0.acts ++ ((importKeys s0.pm.pluginMap it).filterMap (importInst s0.pm.pluginMap)).map Act.callImport
  fresh : ∀ k p, s.pm.pluginMap.get? k = some p → p.unchanged = false → Resolved s.pm.pluginMap p
  rebuilt : ∀ k p, s.pm.pluginMap.get? k = some p → p.unchanged = true →
        ∀ d ∈ p.deps, ∃ q, s.pm.pluginMap.get? (name2key d) = some q ∧ q.unchanged = true
  perm : s.pm.ordered.Perm s.pm.pluginMap.vals
  topo : Topological s.pm.pluginMap s.pm.ordered

theorem initDeps_wp {s0 : LoadSt} (it : Iter) (hk : Keyed s0.pm.pluginMap)
    (hempty : ∀ k p, s0.pm.pluginMap.get? k = some p → p.unchanged = false → p.deps = [] ∧ p.bound = []) :
    wp (initDeps it) (fun _ s' => DepsDone s0 it s') (ImpFail s0 (importKeys s0.pm.pluginMap it)) s0 := by
  unfold initDeps
  simp only [wp_bind, wp_get]
  have hnd : (importKeys s0.pm.pluginMap it).Nodup :=
    (sortStrings_perm _).symm.nodup (GoMap.range_nodup ..)
  have hall : ∀ k, k ∈ importKeys s0.pm.pluginMap it ↔ k ∈ s0.pm.pluginMap.keys := by
    intro k; unfold importKeys; rw [mem_sortStrings, GoMap.mem_range]
  refine wp_mono (importLoop_wp hempty hnd (fun k hk => (hall k).mp hk)) ?_ (fun _ _ h => h)
  intro _ s1 h1
  have hk1 := h1.frame.same.keyed hk
  have hfail : ∀ f s', s' = s1 ∧ FailOK s1.pm f → ImpFail s0 (importKeys s0.pm.pluginMap it) f s' := by
    rintro f s' ⟨rfl, hf⟩
    exact ⟨h1.frame, hf, _, List.prefix_refl _, h1.acts⟩
  have hres : ∀ k p, s1.pm.pluginMap.get? k = some p → p.unchanged = false → ∀ d ∈ p.deps, s1.pm.pluginMap.get? (name2key d) ≠ none := by
    intro k p hp hu d hd
    have hkm : k ∈ importKeys s0.pm.pluginMap it := (hall k).mpr (by rw [← h1.frame.same.keys]; exact GoMap.mem_keys.mpr ⟨p, hp⟩)
    have hr := (h1.fresh k p hp hu hkm).transfer h1.frame.same
    rw [hr.2.1] at hd
    obtain ⟨f, _, hf⟩ := List.mem_filterMap.mp hd
    obtain ⟨q, hq, rfl⟩ := Option.map_eq_some_iff.mp hf
    rw [hk1 _ _ hq, hq]; simp
  have hresolved : ∀ k p, s1.pm.pluginMap.get? k = some p → p.unchanged = false → Resolved s1.pm.pluginMap p := by
    intro k p hp hu
    refine (h1.fresh k p hp hu ?_).transfer h1.frame.same
    refine (hall k).mpr ?_
    rw [← h1.frame.same.keys]
    exact GoMap.mem_keys.mpr ⟨p, hp⟩
  refine wp_mono (checkAllCyclic_wp it hk1 hres hresolved) ?_ hfail
  rintro _ s2 ⟨rfl, hclean⟩
  refine wp_mono (checkRebuilt_wp it) ?_ hfail
  rintro _ s3 ⟨rfl, hreb⟩
  unfold setOrder
  simp only [wp_bind, wp_get]
  obtain ⟨a, ha⟩ := orderPlugins_total hk1 it hclean
  rw [ha]
  simp only [wp_modPm]
  obtain ⟨hperm, htopo⟩ := orderPlugins_some hk1 ha
  refine ⟨h1.frame.next, ?_, h1.frame.same, h1.acts, ?_, hreb, hperm, htopo⟩
  · have := h1.frame.pm
    generalize s3.pm = pm at *
    rw [this]
  · exact hresolved

/-! ### OnLoad -/

theorem onLoad_wp {s0 : LoadSt} (data : Nat) (hvals : ∀ p ∈ s0.pm.ordered, p ∈ s0.pm.pluginMap.vals) :
    wp (invokeEveryOnLoad data)
      (fun _ s' => s' = { s0 with acts := s0.acts ++ (freshOnes s0.pm.ordered).map (fun p => Act.callOnLoad p.inst data) } ∧
        ∀ p ∈ freshOnes s0.pm.ordered, p.code.onLoad data = .ok)
      (fun f s' => FailOK s0.pm f ∧ ∃ done p, done ++ [p] <+: freshOnes s0.pm.ordered ∧
        (∀ q ∈ done, q.code.onLoad data = .ok) ∧ p.code.onLoad data ≠ .ok ∧
        s' = { s0 with acts := s0.acts ++ (done ++ [p]).map (fun p => Act.callOnLoad p.inst data) }) s0 := by
  unfold invokeEveryOnLoad
  simp only [wp_bind, wp_get]
  refine wp_forEach _ _ (fun done s' =>
    s' = { s0 with acts := s0.acts ++ (freshOnes done).map (fun p => Act.callOnLoad p.inst data) } ∧
        ∀ p ∈ freshOnes done, p.code.onLoad data = .ok) _ ?_ ?_ (fun _ h => h)
  · simp [freshOnes]
  · rintro done p rest s hl ⟨rfl, hok⟩
    cases hu : p.unchanged with
    | true =>
      simp only [if_true, wp_mpure]
      have : freshOnes (done ++ [p]) = freshOnes done := by simp [freshOnes, hu]
      rw [this]; exact ⟨rfl, hok⟩
    | false =>
      simp only [Bool.false_eq_true, if_false, wp_bind, wp_emit]
      have hf : freshOnes (done ++ [p]) = freshOnes done ++ [p] := by simp [freshOnes, hu]
      have hpre : freshOnes done ++ [p] <+: freshOnes s0.pm.ordered := by
        rw [hl, ← hf]
        have : done ++ p :: rest = (done ++ [p]) ++ rest := by simp
        rw [this]
        unfold freshOnes
        rw [List.filter_append (done ++ [p]) rest]
        exact List.prefix_append _ _
      cases hc : p.code.onLoad data with
      | ok =>
        simp only [wp_mpure]
        rw [hf]
        refine ⟨by simp [List.append_assoc], ?_⟩
        intro q hq
        rcases List.mem_append.mp hq with hq | hq
        · exact hok q hq
        · simp at hq; subst hq; exact hc
      | err =>
        simp only [wp_throw]
        exact ⟨⟨p, hvals p (by rw [hl]; simp), rfl, hu, .inl ⟨data, hc⟩⟩, freshOnes done, p, hpre, hok, by simp [hc], by simp [List.append_assoc]⟩
      | panics =>
        simp only [wp_throw]
        exact ⟨⟨p, hvals p (by rw [hl]; simp), rfl, hu, .inr (.inl ⟨data, hc⟩)⟩, freshOnes done, p, hpre, hok, by simp [hc], by simp [List.append_assoc]⟩

/-! ### OnInit -/

omit [GoRuntime] in
theorem initActs_append (mid : Nat) (v : Vault) (a b : List Plugin) :
    initActs mid v (a ++ b) = initActs mid v a ++ initActs mid (vaultAfter v a) b := by
  induction a generalizing v with
  | nil => rfl
  | cons p r ih => simp [initActs, vaultAfter, ih]

omit [GoRuntime] in
theorem vaultAfter_append (v : Vault) (a b : List Plugin) :
    vaultAfter v (a ++ b) = vaultAfter (vaultAfter v a) b := by
  induction a generalizing v with
  | nil => rfl
  | cons p r ih => simp [vaultAfter, ih]

omit [GoRuntime] in
theorem initOK_append {v : Vault} {a b : List Plugin} :
    initOK v (a ++ b) ↔ initOK v a ∧ initOK (vaultAfter v a) b := by
  induction a generalizing v with
  | nil => simp [initOK, vaultAfter]
  | cons p r ih => simp [initOK, vaultAfter, ih, and_assoc]

theorem onInit_wp {s0 : LoadSt} (hvals : ∀ p ∈ s0.pm.ordered, p ∈ s0.pm.pluginMap.vals) :
    wp invokeEveryOnInit
      (fun _ s' => s' = { s0 with
          acts := s0.acts ++ initActs s0.pm.mid s0.pm.vault (freshOnes s0.pm.ordered)
          pm := { s0.pm with vault := vaultAfter s0.pm.vault (freshOnes s0.pm.ordered) } } ∧
        initOK s0.pm.vault (freshOnes s0.pm.ordered))
      (fun f s' => FailOK s0.pm f ∧ ∃ done p, done ++ [p] <+: freshOnes s0.pm.ordered ∧
        initOK s0.pm.vault done ∧ (p.code.onInit (vaultAfter s0.pm.vault done)).1 ≠ .ok ∧
        s' = { s0 with
          acts := s0.acts ++ initActs s0.pm.mid s0.pm.vault (done ++ [p])
          pm := { s0.pm with vault := vaultAfter s0.pm.vault (done ++ [p]) } }) s0 := by
  unfold invokeEveryOnInit
  simp only [wp_bind, wp_get]
  refine wp_forEach _ _ (fun done s' =>
    s' = { s0 with
          acts := s0.acts ++ initActs s0.pm.mid s0.pm.vault (freshOnes done)
          pm := { s0.pm with vault := vaultAfter s0.pm.vault (freshOnes done) } } ∧
        initOK s0.pm.vault (freshOnes done)) _ ?_ ?_ (fun _ h => h)
  · simp [freshOnes, initActs, vaultAfter, initOK]
  · rintro done p rest s hl ⟨rfl, hok⟩
    cases hu : p.unchanged with
    | true =>
      simp only [if_true, wp_mpure]
      have : freshOnes (done ++ [p]) = freshOnes done := by simp [freshOnes, hu]
      rw [this]; exact ⟨rfl, hok⟩
    | false =>
      simp only [Bool.false_eq_true, if_false, wp_bind, wp_get, wp_emit, wp_modPm]
      have hf : freshOnes (done ++ [p]) = freshOnes done ++ [p] := by simp [freshOnes, hu]
      have hpre : freshOnes done ++ [p] <+: freshOnes s0.pm.ordered := by
        rw [hl, ← hf]
        have : done ++ p :: rest = (done ++ [p]) ++ rest := by simp
        rw [this]
        unfold freshOnes
        rw [List.filter_append (done ++ [p]) rest]
        exact List.prefix_append _ _
      cases hc : (p.code.onInit (vaultAfter s0.pm.vault (freshOnes done))).1 with
      | ok =>
        simp only [wp_mpure]
        rw [hf]
        refine ⟨by simp [List.append_assoc, initActs_append, vaultAfter_append, initActs, vaultAfter], ?_⟩
        rw [initOK_append]
        exact ⟨hok, hc, trivial⟩
      | err =>
        simp only [wp_throw]
        exact ⟨⟨p, hvals p (by rw [hl]; simp), rfl, hu, .inr ⟨_, hc⟩⟩, freshOnes done, p, hpre, hok, by simp [hc],
          by simp [List.append_assoc, initActs_append, vaultAfter_append, initActs, vaultAfter]⟩
      | panics =>
        simp only [wp_throw]
        exact ⟨⟨p, hvals p (by rw [hl]; simp), rfl, hu, .inr (.inr ⟨_, hc⟩)⟩, freshOnes done, p, hpre, hok, by simp [hc],
          by simp [List.append_assoc, initActs_append, vaultAfter_append, initActs, vaultAfter]⟩

end Hotswap
