import Verif.Proofs.Finish

/-! The vault: `setupVault`. -/

namespace Hotswap

variable [GoRuntime]

open M

omit [GoRuntime] in
theorem findOwner_spec {live : Plugin → Ret (Option (GoMap Val))} {k : Str} {l : List Plugin}
    (h : ∃ q ∈ l, ∃ a, live q = .ret (some a) ∧ a.get? k ≠ none) :
    ∃ x b1 b2 mx, l = b1 ++ x :: b2 ∧ findOwner live k l = x.name ∧ live x = .ret (some mx) ∧ mx.get? k ≠ none := by
  induction l with
  | nil => obtain ⟨q, hq, _⟩ := h; simp at hq
  | cons p r ih =>
    have rest : (∀ a, live p = .ret (some a) → a.get? k = none) → findOwner live k (p :: r) = findOwner live k r →
        ∃ x b1 b2 mx, p :: r = b1 ++ x :: b2 ∧ findOwner live k (p :: r) = x.name ∧ live x = .ret (some mx) ∧ mx.get? k ≠ none := by
      intro hno heq
      obtain ⟨q, hq, a, hqa, hak⟩ := h
      rcases List.mem_cons.mp hq with rfl | hq
      · exact absurd (hno a hqa) hak
      · obtain ⟨x, b1, b2, mx, hb, hx, hxm, hxk⟩ := ih ⟨q, hq, a, hqa, hak⟩
        exact ⟨x, p :: b1, b2, mx, by rw [hb]; rfl, by rw [heq, hx], hxm, hxk⟩
    cases hp : live p with
    | panics => exact rest (fun a ha => by rw [hp] at ha; cases ha) (by simp [findOwner, hp])
    | ret o =>
      cases o with
      | none => exact rest (fun a ha => by rw [hp] at ha; cases ha) (by simp [findOwner, hp])
      | some m =>
        cases hk : m.get? k with
        | none =>
          exact rest (fun a ha => by rw [hp] at ha; cases ha; exact hk) (by simp [findOwner, hp, hk])
        | some v =>
          exact ⟨p, [], r, m, rfl, by simp [findOwner, hp, hk], hp, by rw [hk]; simp⟩

theorem addLiveFuncs_wp {s0 : LoadSt} (it : Iter) {before after : List Plugin} {p : Plugin} {m : GoMap Val}
    (hord : s0.pm.ordered = before ++ p :: after)
    (hp : p.code.liveFuncs = .ret (some m))
    (hun : LiveUnion (·.code.liveFuncs) before s0.pm.vault.liveFuncs) :
    wp (addLiveFuncs it before p m)
      (fun _ s' => ∃ m', s' = { s0 with pm := { s0.pm with vault := { s0.pm.vault with liveFuncs := m' } } } ∧
        LiveUnion (·.code.liveFuncs) (before ++ [p]) m' ∧ ∀ k, m.get? k ≠ none → s0.pm.vault.liveFuncs.get? k = none)
      (fun f s' => ∃ m', s' = { s0 with pm := { s0.pm with vault := { s0.pm.vault with liveFuncs := m' } } } ∧ FailOK s'.pm f)
      s0 := by
  unfold addLiveFuncs
  have hkn : ((m.rangeKV it (.liveFuncs before.length)).map Prod.fst).Nodup :=
    ((GoMap.rangeKV_perm it _ m).map Prod.fst).symm.nodup m.nodup
  refine wp_forEach _ _ (fun done s' => ∃ m', s' = { s0 with pm := { s0.pm with vault := { s0.pm.vault with liveFuncs := m' } } } ∧
        (∀ k v, m'.get? k = some v ↔ s0.pm.vault.liveFuncs.get? k = some v ∨ (k, v) ∈ done) ∧
        (∀ e ∈ done, s0.pm.vault.liveFuncs.get? e.1 = none)) _ ?_ ?_ ?_
  · exact ⟨s0.pm.vault.liveFuncs, rfl, by simp, by simp⟩
  · rintro done ⟨k, v⟩ rest s hl ⟨m', rfl, hm', hdone⟩
    have hkd : ∀ w, (k, w) ∉ done := by
      intro w hw
      rw [hl, List.map_append, List.nodup_append] at hkn
      exact hkn.2.2 k (List.mem_map.mpr ⟨_, hw, rfl⟩) k (by simp) rfl
    simp only [wp_bind, wp_get]
    cases hk : m'.get? k with
    | none =>
      simp only [wp_modPm]
      have h0 : s0.pm.vault.liveFuncs.get? k = none := by
        cases h : s0.pm.vault.liveFuncs.get? k with
        | none => rfl
        | some w => rw [(hm' k w).mpr (.inl h)] at hk; cases hk
      refine ⟨m'.insert k v, rfl, ?_, ?_⟩
      · intro k' v'
        rw [GoMap.get?_insert]
        by_cases hkk : k' = k
        · subst hkk
          simp only [if_true, Option.some.injEq, List.mem_append, List.mem_singleton, Prod.mk.injEq]
          constructor
          · intro h; exact .inr (.inr ⟨trivial, h.symm⟩)
          · rintro (h | h | h)
            · rw [h0] at h; cases h
            · exact absurd h (hkd v')
            · exact h.2.symm
        · simp only [if_neg hkk, List.mem_append, List.mem_singleton, Prod.mk.injEq, hm']
          constructor
          · rintro (h | h)
            · exact .inl h
            · exact .inr (.inl h)
          · rintro (h | h | h)
            · exact .inl h
            · exact .inr h
            · exact absurd h.1 hkk
      · intro e he
        rcases List.mem_append.mp he with he | he
        · exact hdone e he
        · simp at he; subst he; exact h0
    | some w =>
      simp only [wp_throw]
      refine ⟨m', rfl, ?_⟩
      have h0 : s0.pm.vault.liveFuncs.get? k = some w := by
        rcases (hm' k w).mp hk with h | h
        · exact h
        · exact absurd h (hkd w)
      obtain ⟨q, hq, a, hqa, hak⟩ := (hun k w).mp h0
      obtain ⟨x, b1, b2, mx, hb, hx, hxm, hxk⟩ := findOwner_spec (live := (·.code.liveFuncs)) (k := k) ⟨q, hq, a, hqa, by rw [hak]; simp⟩
      have hmk : m.get? k = some v := GoMap.mem_rangeKV.mp (by rw [hl]; simp)
      exact ⟨x, p, b1, b2, after, mx, m, by rw [hord, hb], hx.symm, rfl, hxm, hp, hxk, by rw [hmk]; simp⟩
  · rintro s ⟨m', rfl, hm', hdone⟩
    refine ⟨m', rfl, ?_, ?_⟩
    · intro k v
      rw [hm', hun k v, GoMap.mem_rangeKV]
      constructor
      · rintro (⟨q, hq, a, hqa, hak⟩ | h)
        · exact ⟨q, List.mem_append_left _ hq, a, hqa, hak⟩
        · exact ⟨p, by simp, m, hp, h⟩
      · rintro ⟨q, hq, a, hqa, hak⟩
        rcases List.mem_append.mp hq with hq | hq
        · exact .inl ⟨q, hq, a, hqa, hak⟩
        · simp at hq; subst hq
          simp only [hp] at hqa; cases hqa
          exact .inr hak
    · intro k hk
      cases hv : m.get? k with
      | none => exact absurd hv hk
      | some v => exact hdone (k, v) (GoMap.mem_rangeKV.mpr hv)

theorem setupLiveFuncs_wp (it : Iter) (before rest : List Plugin) {s0 : LoadSt}
    (hord : s0.pm.ordered = before ++ rest)
    (hun : LiveUnion (·.code.liveFuncs) before s0.pm.vault.liveFuncs)
    (hok : LiveOK (·.code.liveFuncs) before) :
    wp (setupLiveFuncs it before rest)
      (fun _ s' => ∃ m', s' = { s0 with acts := s0.acts ++ rest.map (fun p => Act.callLiveFuncs p.inst), pm := { s0.pm with vault := { s0.pm.vault with liveFuncs := m' } } } ∧
        LiveUnion (·.code.liveFuncs) (before ++ rest) m' ∧ LiveOK (·.code.liveFuncs) (before ++ rest))
      (fun f s' => ∃ m' pre, pre <+: rest ∧ s' = { s0 with acts := s0.acts ++ pre.map (fun p => Act.callLiveFuncs p.inst), pm := { s0.pm with vault := { s0.pm.vault with liveFuncs := m' } } } ∧ FailOK s'.pm f)
      s0 := by
  induction rest generalizing before s0 with
  | nil =>
    simp only [setupLiveFuncs, wp_mpure, List.append_nil]
    exact ⟨s0.pm.vault.liveFuncs, by simp, hun, hok⟩
  | cons p r ih =>
    simp only [setupLiveFuncs, wp_bind, wp_emit]
    have hfail : ∀ f, FailOK s0.pm f → ∃ m' pre, pre <+: p :: r ∧ ({ s0 with acts := s0.acts ++ [Act.callLiveFuncs p.inst] } : LoadSt)
        = { s0 with acts := s0.acts ++ pre.map (fun p => Act.callLiveFuncs p.inst), pm := { s0.pm with vault := { s0.pm.vault with liveFuncs := m' } } } ∧ FailOK s0.pm f :=
      fun f hf => ⟨s0.pm.vault.liveFuncs, [p], ⟨r, rfl⟩, rfl, hf⟩
    cases hp : p.code.liveFuncs with
    | panics => exact hfail _ ⟨p, by rw [hord]; simp, .inl hp⟩
    | ret o =>
      cases o with
      | none => exact hfail _ ⟨p, by rw [hord]; simp, rfl, hp⟩
      | some m =>
        simp only [wp_bind]
        refine wp_mono (addLiveFuncs_wp (s0 := { s0 with acts := s0.acts ++ [Act.callLiveFuncs p.inst] }) it hord hp hun) ?_ ?_
        · rintro _ s1 ⟨m1, rfl, hun1, hdis⟩
          have hok1 : LiveOK (·.code.liveFuncs) (before ++ [p]) := by
            refine ⟨?_, ?_⟩
            · intro q hq
              rcases List.mem_append.mp hq with hq | hq
              · exact hok.1 q hq
              · simp at hq; subst hq; exact ⟨m, hp⟩
            · rw [List.pairwise_append]
              refine ⟨hok.2, by simp, ?_⟩
              intro x hx y hy a b hxa hyb k hak
              simp at hy; subst hy
              simp only [hp] at hyb; cases hyb
              cases hbk : m.get? k with
              | none => rfl
              | some w =>
                exfalso
                cases hv : a.get? k with
                | none => exact hak hv
                | some v =>
                  have h1 := (hun k v).mpr ⟨x, hx, a, hxa, hv⟩
                  have h2 := hdis k (by rw [hbk]; simp)
                  simp only at h2
                  rw [h1] at h2; cases h2
          refine wp_mono (ih (before ++ [p]) (by simp [hord]) hun1 hok1) ?_ ?_
          · rintro _ s2 ⟨m2, rfl, h2, h3⟩
            exact ⟨m2, by simp, by simpa using h2, by simpa using h3⟩
          · rintro f s2 ⟨m2, pre, hpre, rfl, hf⟩
            exact ⟨m2, p :: pre, (List.prefix_cons_inj p).mpr hpre, by simp, hf⟩
        · rintro f s1 ⟨m1, rfl, hf⟩
          exact ⟨m1, [p], ⟨r, rfl⟩, by simp, hf⟩

theorem addLiveTypes_wp {s0 : LoadSt} (it : Iter) {before after : List Plugin} {p : Plugin} {m : GoMap Val}
    (hord : s0.pm.ordered = before ++ p :: after)
    (hp : p.code.liveTypes = .ret (some m))
    (hun : LiveUnion (·.code.liveTypes) before s0.pm.vault.liveTypes) :
    wp (addLiveTypes it before p m)
      (fun _ s' => ∃ m', s' = { s0 with pm := { s0.pm with vault := { s0.pm.vault with liveTypes := m' } } } ∧
        LiveUnion (·.code.liveTypes) (before ++ [p]) m' ∧ ∀ k, m.get? k ≠ none → s0.pm.vault.liveTypes.get? k = none)
      (fun f s' => ∃ m', s' = { s0 with pm := { s0.pm with vault := { s0.pm.vault with liveTypes := m' } } } ∧ FailOK s'.pm f)
      s0 := by
  unfold addLiveTypes
  have hkn : ((m.rangeKV it (.liveTypes before.length)).map Prod.fst).Nodup :=
    ((GoMap.rangeKV_perm it _ m).map Prod.fst).symm.nodup m.nodup
  refine wp_forEach _ _ (fun done s' => ∃ m', s' = { s0 with pm := { s0.pm with vault := { s0.pm.vault with liveTypes := m' } } } ∧
        (∀ k v, m'.get? k = some v ↔ s0.pm.vault.liveTypes.get? k = some v ∨ (k, v) ∈ done) ∧
        (∀ e ∈ done, s0.pm.vault.liveTypes.get? e.1 = none)) _ ?_ ?_ ?_
  · exact ⟨s0.pm.vault.liveTypes, rfl, by simp, by simp⟩
  · rintro done ⟨k, v⟩ rest s hl ⟨m', rfl, hm', hdone⟩
    have hkd : ∀ w, (k, w) ∉ done := by
      intro w hw
      rw [hl, List.map_append, List.nodup_append] at hkn
      exact hkn.2.2 k (List.mem_map.mpr ⟨_, hw, rfl⟩) k (by simp) rfl
    simp only [wp_bind, wp_get]
    cases hk : m'.get? k with
    | none =>
      simp only [wp_modPm]
      have h0 : s0.pm.vault.liveTypes.get? k = none := by
        cases h : s0.pm.vault.liveTypes.get? k with
        | none => rfl
        | some w => rw [(hm' k w).mpr (.inl h)] at hk; cases hk
      refine ⟨m'.insert k v, rfl, ?_, ?_⟩
      · intro k' v'
        rw [GoMap.get?_insert]
        by_cases hkk : k' = k
        · subst hkk
          simp only [if_true, Option.some.injEq, List.mem_append, List.mem_singleton, Prod.mk.injEq]
          constructor
          · intro h; exact .inr (.inr ⟨trivial, h.symm⟩)
          · rintro (h | h | h)
            · rw [h0] at h; cases h
            · exact absurd h (hkd v')
            · exact h.2.symm
        · simp only [if_neg hkk, List.mem_append, List.mem_singleton, Prod.mk.injEq, hm']
          constructor
          · rintro (h | h)
            · exact .inl h
            · exact .inr (.inl h)
          · rintro (h | h | h)
            · exact .inl h
            · exact .inr h
            · exact absurd h.1 hkk
      · intro e he
        rcases List.mem_append.mp he with he | he
        · exact hdone e he
        · simp at he; subst he; exact h0
    | some w =>
      simp only [wp_throw]
      refine ⟨m', rfl, ?_⟩
      have h0 : s0.pm.vault.liveTypes.get? k = some w := by
        rcases (hm' k w).mp hk with h | h
        · exact h
        · exact absurd h (hkd w)
      obtain ⟨q, hq, a, hqa, hak⟩ := (hun k w).mp h0
      obtain ⟨x, b1, b2, mx, hb, hx, hxm, hxk⟩ := findOwner_spec (live := (·.code.liveTypes)) (k := k) ⟨q, hq, a, hqa, by rw [hak]; simp⟩
      have hmk : m.get? k = some v := GoMap.mem_rangeKV.mp (by rw [hl]; simp)
      exact ⟨x, p, b1, b2, after, mx, m, by rw [hord, hb], hx.symm, rfl, hxm, hp, hxk, by rw [hmk]; simp⟩
  · rintro s ⟨m', rfl, hm', hdone⟩
    refine ⟨m', rfl, ?_, ?_⟩
    · intro k v
      rw [hm', hun k v, GoMap.mem_rangeKV]
      constructor
      · rintro (⟨q, hq, a, hqa, hak⟩ | h)
        · exact ⟨q, List.mem_append_left _ hq, a, hqa, hak⟩
        · exact ⟨p, by simp, m, hp, h⟩
      · rintro ⟨q, hq, a, hqa, hak⟩
        rcases List.mem_append.mp hq with hq | hq
        · exact .inl ⟨q, hq, a, hqa, hak⟩
        · simp at hq; subst hq
          simp only [hp] at hqa; cases hqa
          exact .inr hak
    · intro k hk
      cases hv : m.get? k with
      | none => exact absurd hv hk
      | some v => exact hdone (k, v) (GoMap.mem_rangeKV.mpr hv)

theorem setupLiveTypes_wp (it : Iter) (before rest : List Plugin) {s0 : LoadSt}
    (hord : s0.pm.ordered = before ++ rest)
    (hun : LiveUnion (·.code.liveTypes) before s0.pm.vault.liveTypes)
    (hok : LiveOK (·.code.liveTypes) before) :
    wp (setupLiveTypes it before rest)
      (fun _ s' => ∃ m', s' = { s0 with acts := s0.acts ++ rest.map (fun p => Act.callLiveTypes p.inst), pm := { s0.pm with vault := { s0.pm.vault with liveTypes := m' } } } ∧
        LiveUnion (·.code.liveTypes) (before ++ rest) m' ∧ LiveOK (·.code.liveTypes) (before ++ rest))
      (fun f s' => ∃ m' pre, pre <+: rest ∧ s' = { s0 with acts := s0.acts ++ pre.map (fun p => Act.callLiveTypes p.inst), pm := { s0.pm with vault := { s0.pm.vault with liveTypes := m' } } } ∧ FailOK s'.pm f)
      s0 := by
  induction rest generalizing before s0 with
  | nil =>
    simp only [setupLiveTypes, wp_mpure, List.append_nil]
    exact ⟨s0.pm.vault.liveTypes, by simp, hun, hok⟩
  | cons p r ih =>
    simp only [setupLiveTypes, wp_bind, wp_emit]
    have hfail : ∀ f, FailOK s0.pm f → ∃ m' pre, pre <+: p :: r ∧ ({ s0 with acts := s0.acts ++ [Act.callLiveTypes p.inst] } : LoadSt)
        = { s0 with acts := s0.acts ++ pre.map (fun p => Act.callLiveTypes p.inst), pm := { s0.pm with vault := { s0.pm.vault with liveTypes := m' } } } ∧ FailOK s0.pm f :=
      fun f hf => ⟨s0.pm.vault.liveTypes, [p], ⟨r, rfl⟩, rfl, hf⟩
    cases hp : p.code.liveTypes with
    | panics => exact hfail _ ⟨p, by rw [hord]; simp, .inr hp⟩
    | ret o =>
      cases o with
      | none => exact hfail _ ⟨p, by rw [hord]; simp, rfl, hp⟩
      | some m =>
        simp only [wp_bind]
        refine wp_mono (addLiveTypes_wp (s0 := { s0 with acts := s0.acts ++ [Act.callLiveTypes p.inst] }) it hord hp hun) ?_ ?_
        · rintro _ s1 ⟨m1, rfl, hun1, hdis⟩
          have hok1 : LiveOK (·.code.liveTypes) (before ++ [p]) := by
            refine ⟨?_, ?_⟩
            · intro q hq
              rcases List.mem_append.mp hq with hq | hq
              · exact hok.1 q hq
              · simp at hq; subst hq; exact ⟨m, hp⟩
            · rw [List.pairwise_append]
              refine ⟨hok.2, by simp, ?_⟩
              intro x hx y hy a b hxa hyb k hak
              simp at hy; subst hy
              simp only [hp] at hyb; cases hyb
              cases hbk : m.get? k with
              | none => rfl
              | some w =>
                exfalso
                cases hv : a.get? k with
                | none => exact hak hv
                | some v =>
                  have h1 := (hun k v).mpr ⟨x, hx, a, hxa, hv⟩
                  have h2 := hdis k (by rw [hbk]; simp)
                  simp only at h2
                  rw [h1] at h2; cases h2
          refine wp_mono (ih (before ++ [p]) (by simp [hord]) hun1 hok1) ?_ ?_
          · rintro _ s2 ⟨m2, rfl, h2, h3⟩
            exact ⟨m2, by simp, by simpa using h2, by simpa using h3⟩
          · rintro f s2 ⟨m2, pre, hpre, rfl, hf⟩
            exact ⟨m2, p :: pre, (List.prefix_cons_inj p).mpr hpre, by simp, hf⟩
        · rintro f s1 ⟨m1, rfl, hf⟩
          exact ⟨m1, [p], ⟨r, rfl⟩, by simp, hf⟩

/-- The vault phase as a whole. -/
theorem setupVault_wp (it : Iter) {s0 : LoadSt}
    (hf : s0.pm.vault.liveFuncs = .empty) (ht : s0.pm.vault.liveTypes = .empty) :
    wp (setupVault it)
      (fun _ s' => ∃ v, s' = { s0 with
            acts := s0.acts ++ s0.pm.ordered.map (fun p => Act.callLiveFuncs p.inst)
                     ++ s0.pm.ordered.map (fun p => Act.callLiveTypes p.inst)
            pm := { s0.pm with vault := v } } ∧
        VaultReady s0.pm.ordered s0.pm.vault v ∧
        LiveOK (·.code.liveFuncs) s0.pm.ordered ∧ LiveOK (·.code.liveTypes) s0.pm.ordered)
      (fun f s' => ∃ v lf lt, lf <+: s0.pm.ordered ∧ lt <+: s0.pm.ordered ∧ (lt ≠ [] → lf = s0.pm.ordered) ∧
          s' = { s0 with
            acts := s0.acts ++ lf.map (fun p => Act.callLiveFuncs p.inst)
                     ++ lt.map (fun p => Act.callLiveTypes p.inst)
            pm := { s0.pm with vault := v } } ∧ FailOK s'.pm f)
      s0 := by
  unfold setupVault
  simp only [wp_bind, wp_get]
  refine wp_mono (setupLiveFuncs_wp it [] s0.pm.ordered (by simp) (by rw [hf]; intro k v; simp) ⟨by simp, by simp⟩) ?_ ?_
  · rintro _ s1 ⟨m1, rfl, hu1, hok1⟩
    refine wp_mono (setupLiveTypes_wp it [] s0.pm.ordered (by simp) (by simp only; rw [ht]; intro k v; simp) ⟨by simp, by simp⟩) ?_ ?_
    · rintro _ s2 ⟨m2, rfl, hu2, hok2⟩
      exact ⟨_, rfl, ⟨by simpa using hu1, by simpa using hu2, rfl, rfl⟩, by simpa using hok1, by simpa using hok2⟩
    · rintro f s2 ⟨m2, pre, hpre, rfl, hfail⟩
      exact ⟨_, s0.pm.ordered, pre, List.prefix_refl _, hpre, fun _ => rfl, rfl, hfail⟩
  · rintro f s1 ⟨m1, pre, hpre, rfl, hfail⟩
    exact ⟨{ s0.pm.vault with liveFuncs := m1 }, pre, [], hpre, List.nil_prefix, fun h => absurd rfl h, by simp, hfail⟩

end Hotswap
