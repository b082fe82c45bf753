import Verif.Spec.NilStatic
import Verif.Proofs.Views

/-! `LoadPlugins` with nil pointers among the statically linked plugins. -/

namespace Hotswap

variable [GoRuntime]

open M

section
omit [GoRuntime]

theorem get?_nonNil (sps : GoMap (Option StaticPlugin)) (k : Str) (sp : StaticPlugin) : (nonNil sps).get? k = some sp ↔ sps.get? k = some (some sp) := by
  rw [GoMap.get?_eq_some, GoMap.get?_eq_some]
  simp only [nonNil, List.mem_filterMap]
  constructor
  · rintro ⟨⟨k', v⟩, hm, he⟩
    cases v with
    | none => cases he
    | some x => simp at he; obtain ⟨rfl, rfl⟩ := he; exact hm
  · intro h
    exact ⟨(k, some sp), h, rfl⟩

theorem GoMap.ext_entries {α : Type} {m m' : GoMap α} (h : m.entries = m'.entries) : m = m' := by
  cases m; cases m'; simp only at h; subst h; rfl

theorem nonNil_insert (sps : GoMap (Option StaticPlugin)) (k : Str) (sp : StaticPlugin) : nonNil (sps.insert k (some sp)) = (nonNil sps).insert k sp := by
  apply GoMap.ext_entries
  simp only [nonNil, GoMap.insert, List.filterMap_cons, Option.map_some]
  congr 1
  induction sps.entries with
  | nil => rfl
  | cons e l ih =>
    obtain ⟨k', v⟩ := e
    by_cases hk : k' = k
    · subst hk
      cases v <;> simp [ih]
    · cases v <;> simp [hk, ih]

/-- A map without nil pointers. -/
theorem nonNil_keys {sps : GoMap (Option StaticPlugin)} (h : ∀ k, sps.get? k ≠ some none) : (nonNil sps).keys = sps.keys := by
  have hall : ∀ e ∈ sps.entries, e.2 ≠ none := by
    rintro ⟨k, v⟩ he rfl
    exact h k (GoMap.get?_eq_some.mpr he)
  unfold GoMap.keys
  simp only [nonNil]
  generalize sps.entries = l at hall
  induction l with
  | nil => rfl
  | cons e l ih =>
    obtain ⟨k, v⟩ := e
    have h0 := hall (k, v) (by simp)
    cases v with
    | none => exact absurd rfl h0
    | some x => simp [ih (fun e he => hall e (List.mem_cons_of_mem _ he))]

theorem selectStaticP_same {sps : GoMap (Option StaticPlugin)} (wl : List Str) (acc : GoMap (Option StaticPlugin)) (h : ∀ n ∈ wl, sps.get? n ≠ some none) :
    selectStatic (nonNil sps) wl (nonNil acc) = match selectStaticP sps wl acc with
      | .error e => .error e
      | .ok sel => .ok (nonNil sel) := by
  induction wl generalizing acc with
  | nil => rfl
  | cons n r ih =>
    unfold selectStatic selectStaticP
    cases hn : sps.get? n with
    | none =>
      have : (nonNil sps).get? n = none := by
        cases hc : (nonNil sps).get? n with
        | none => rfl
        | some sp => rw [get?_nonNil, hn] at hc; cases hc
      rw [this]
    | some v =>
      cases v with
      | none => exact absurd hn (h n (by simp))
      | some sp =>
        rw [(get?_nonNil sps n sp).mpr hn]
        simp only
        rw [← nonNil_insert]
        exact ih _ (fun n' hn' => h n' (List.mem_cons_of_mem _ hn'))

theorem selectStaticP_mem {sps acc sel : GoMap (Option StaticPlugin)} {l : List Str} (h : selectStaticP sps l acc = .ok sel) :
    ∀ n sp, sel.get? n = some sp ↔ (n ∈ l ∧ sps.get? n = some sp) ∨ (n ∉ l ∧ acc.get? n = some sp) := by
  induction l generalizing acc with
  | nil => simp [selectStaticP] at h; subst h; simp
  | cons a r ih =>
    unfold selectStaticP at h
    cases ha : sps.get? a with
    | none => rw [ha] at h; cases h
    | some q =>
      rw [ha] at h
      simp only at h
      intro n sp
      rw [ih h n sp, GoMap.get?_insert]
      by_cases hna : n = a
      · subst hna
        by_cases hr : n ∈ r
        · simp [hr]
        · simp [hr, ha]
      · simp [hna]

/-- The first name of the whitelist that is not linked. -/
theorem selectStaticP_err {sps acc : GoMap (Option StaticPlugin)} {l : List Str} {e : Err} (h : selectStaticP sps l acc = .error e) :
    ∃ n ∈ l, sps.get? n = none ∧ e = .staticNotFound n := by
  induction l generalizing acc with
  | nil => cases h
  | cons a r ih =>
    unfold selectStaticP at h
    cases ha : sps.get? a with
    | none => rw [ha] at h; cases h; exact ⟨a, by simp, ha, rfl⟩
    | some q =>
      rw [ha] at h
      obtain ⟨n, hn, h1, h2⟩ := ih h
      exact ⟨n, List.mem_cons_of_mem _ hn, h1, h2⟩

theorem selectStaticP_missing {sps acc sel : GoMap (Option StaticPlugin)} {l : List Str} {n : Str} (hn : n ∈ l) (hg : sps.get? n = none) : selectStaticP sps l acc ≠ .ok sel := by
  induction l generalizing acc with
  | nil => cases hn
  | cons a r ih =>
    unfold selectStaticP
    cases ha : sps.get? a with
    | none => simp
    | some q =>
      rcases List.mem_cons.mp hn with rfl | hn
      · rw [hg] at ha; cases ha
      · exact ih hn

/-- The plugins that are loaded. -/
def selectionP (wl : List Str) (sps : GoMap (Option StaticPlugin)) : Except Err (GoMap (Option StaticPlugin)) :=
  if wl.isEmpty then .ok sps else selectStaticP sps wl .empty

theorem selectionP_ok {wl : List Str} {sps sel : GoMap (Option StaticPlugin)} (h : selectionP wl sps = .ok sel) (n : Str) (v : Option StaticPlugin) :
    sel.get? n = some v ↔ sps.get? n = some v ∧ (wl = [] ∨ n ∈ wl) := by
  unfold selectionP at h
  split at h
  · rename_i hw
    rw [List.isEmpty_iff] at hw
    cases h
    simp [hw]
  · rename_i hw
    rw [List.isEmpty_iff] at hw
    rw [selectStaticP_mem h]
    simp [hw, and_comm]

theorem forEach_congr {α : Type} {l : List α} {f g : α → M Unit} (h : ∀ a ∈ l, f a = g a) : M.forEach l f = M.forEach l g := by
  induction l with
  | nil => rfl
  | cons a l ih =>
    unfold M.forEach
    rw [h a (by simp), ih (fun b hb => h b (List.mem_cons_of_mem _ hb))]

end

/-- Without nil pointers it is the load of Model/Static. -/
theorem loadStaticNewP_same (it : Iter) {sps : GoMap (Option StaticPlugin)} (h : ∀ k, sps.get? k ≠ some none) : loadStaticNewP it sps = loadStaticNew it (nonNil sps) := by
  unfold loadStaticNewP loadStaticNew
  have hr : (nonNil sps).range it .static = sps.range it .static := by
    unfold GoMap.range
    rw [nonNil_keys h]
  rw [hr]
  apply forEach_congr
  intro n hn
  rw [mem_sortStrings, GoMap.mem_range, GoMap.mem_keys] at hn
  obtain ⟨v, hv⟩ := hn
  cases v with
  | none => exact absurd hv (h n)
  | some sp =>
    rw [hv, (get?_nonNil sps n sp).mpr hv]

theorem loadStaticP_same (it : Iter) {sps : GoMap (Option StaticPlugin)} (h : ∀ k, sps.get? k ≠ some none) (data : Nat) : loadStaticP it sps data = loadStatic it (nonNil sps) data := by
  unfold loadStaticP loadStatic loadStaticBodyP loadStaticBody
  rw [loadStaticNewP_same it h]

/-! ### With nil pointers -/

omit [GoRuntime] in
theorem loads_iff [GoRuntime] (sp : StaticPlugin) : Loads sp ↔ staticMissing sp = [] ∧ (∃ b, sp.code.reloadable = .ret b) ∧ ∃ x, sp.code.exportRet = .ret x := by
  have : (∀ f ∈ ["OnLoad", "OnInit", "OnFree", "Export", "Import", "InvokeFunc", "Reloadable", "HotswapLiveFuncs", "HotswapLiveTypes"], sp.missing f.toList = false) ↔ staticMissing sp = [] := by
    unfold staticMissing
    rw [List.filter_eq_nil_iff]
    simp only [pluginFuncItems, List.map_cons, List.map_nil, List.forall_mem_cons, Bool.not_eq_true, List.not_mem_nil, false_imp_iff, implies_true]
  unfold Loads
  rw [this]

theorem StaticFault.not_loads {sp : StaticPlugin} {e : Err} (h : StaticFault sp e) : ¬ Loads sp := by
  rw [loads_iff]
  rintro ⟨h1, ⟨b, h2⟩, x, h3⟩
  unfold StaticFault at h
  split at h
  · exact h.2 (h.1.trans h1)
  · obtain ⟨_, _, h | h⟩ := h
    · rw [h2] at h; cases h
    · rw [h3] at h; cases h
  · exact h

/-- The failure of the loading loop. -/
def NilFail (sel : GoMap (Option StaticPlugin)) (f : Fail) : Prop :=
  ∃ n, (∀ n' v, n' < n → sel.get? n' = some v → ∃ sp, v = some sp ∧ Loads sp) ∧
    ((f = .inl (.panicked none .nilDeref) ∧ sel.get? n = some none) ∨ ∃ sp e, f = .inl (.loading n e) ∧ sel.get? n = some (some sp) ∧ ¬ Loads sp)

theorem loadStaticNewP_wp {n0 : Nat} {s0 : LoadSt} {sel : GoMap (Option StaticPlugin)} (it : Iter) (hok : StaticOK (nonNil sel)) (hnil : ∃ k, sel.get? k = some none)
    (h : Base none n0 s0.pm s0) (hempty : s0.pm.pluginMap = .empty) (hacts : s0.acts = []) :
    wp (loadStaticNewP it sel) (fun _ _ => False) (fun f s => Base none n0 s0.pm s ∧ NilFail sel f) s0 := by
  unfold loadStaticNewP
  have hnd : (sortStrings (sel.range it .static)).Nodup := (sortStrings_perm _).symm.nodup (GoMap.range_nodup ..)
  have hsort := sortStrings_sorted (sel.range it .static)
  have hall : ∀ k, k ∈ sortStrings (sel.range it .static) ↔ k ∈ sel.keys := by
    intro k; rw [mem_sortStrings, GoMap.mem_range]
  refine wp_forEach _ _ (fun done s => StaticInv n0 s0.pm (nonNil sel) done s) _ ⟨h, by simp, ?_, ?_⟩ ?_ ?_
  · intro k p hp; rw [hempty] at hp; cases hp
  · constructor
    · intro a ha; rw [hacts] at ha; cases ha
    · intro k p hp; rw [hempty] at hp; cases hp
  · intro done n rest s hl hinv
    have hmem : n ∈ sel.keys := (hall n).mp (by rw [hl]; simp)
    obtain ⟨v, hv⟩ := GoMap.mem_keys.mp hmem
    have hndone : n ∉ done := by
      rw [hl, List.nodup_append] at hnd
      intro hkd
      exact hnd.2.2 n hkd n (List.mem_cons_self ..) rfl
    have hbefore : ∀ n' v, n' < n → sel.get? n' = some v → ∃ sp, v = some sp ∧ Loads sp := by
      intro n' v' hlt hg
      have hm : n' ∈ done ++ n :: rest := by rw [← hl, hall, GoMap.mem_keys]; exact ⟨v', hg⟩
      rw [hl, List.pairwise_append, List.pairwise_cons] at hsort
      have hd : n' ∈ done := by
        rcases List.mem_append.mp hm with hm | hm
        · exact hm
        · rcases List.mem_cons.mp hm with rfl | hm
          · exact absurd hlt (List.lt_irrefl _)
          · exact absurd hlt (hsort.2.1.1 _ hm)
      obtain ⟨sp, p, h1, _, h3⟩ := hinv.new n' hd
      rw [get?_nonNil, hg] at h1
      injection h1 with h1
      refine ⟨sp, h1, (loads_iff sp).mpr ⟨h3.complete, ⟨_, h3.code ▸ h3.faithful.1⟩, _, h3.code ▸ h3.faithful.2⟩⟩
    rw [hv]
    cases v with
    | none =>
      unfold wp tagPanic
      exact ⟨hinv.base.alloc, n, hbefore, .inl ⟨rfl, hv⟩⟩
    | some sp =>
      have hsp := (get?_nonNil sel n sp).mpr hv
      have hwp := loadStaticPlugin_wp hsp (fun n' hn' sp' hsp' e => hndone (static_key_inj hok hsp' hsp e ▸ hn')) hinv
      unfold wp at hwp
      unfold wp tagPanic wrapLoading
      simp only
      cases hx : loadStaticPlugin sp s with
      | mk e s' =>
        rw [hx] at hwp
        cases e with
        | ok a => exact hwp
        | err e => exact ⟨hwp.1, n, hbefore, .inr ⟨sp, e, rfl, hv, StaticFault.not_loads hwp.2⟩⟩
        | panic p => exact hwp.2.elim
  · intro s hinv
    obtain ⟨k, hk⟩ := hnil
    obtain ⟨sp, p, h1, _⟩ := hinv.new k ((hall k).mpr (GoMap.mem_keys.mpr ⟨_, hk⟩))
    rw [get?_nonNil, hk] at h1
    cases h1

theorem loadStaticP_wp {n0 : Nat} {s0 : LoadSt} (it : Iter) {sel : GoMap (Option StaticPlugin)} (data : Nat) (hok : StaticOK (nonNil sel)) (hnil : ∃ k, sel.get? k = some none)
    (h0 : Fresh n0 s0) :
    wp (loadStaticP it sel data) (fun _ _ => False)
      (fun f s => ∃ f0 sb, Base none n0 s0.pm sb ∧ NilFail sel f0 ∧ BodyLog none n0 sb ∧ f = .inl (errOf f0) ∧ s = { sb with acts := sb.acts ++ cleanupActs it sb.pm }) s0 := by
  unfold loadStaticP
  refine wp_withCleanup (F := fun f s => Base none n0 s0.pm s ∧ NilFail sel f ∧ BodyLog none n0 s) ?_ ?_
  · unfold loadStaticBodyP
    simp only [wp_bind, wp_get]
    have hsz : s0.pm.pluginMap.size = 0 := by rw [h0.map]; rfl
    rw [if_neg (by omega)]
    have hb0 : Base none n0 s0.pm s0 := by
      refine ⟨?_, ?_, ?_, h0.lo, ?_, rfl, ?_, ?_, ?_, ?_, ?_⟩ <;> simp [h0.map, h0.acts, Keyed, Manager.insts, GoMap.vals, GoMap.empty, acquired, HooksIncr, GoMap.get?]
    simp only [wp_bind]
    refine wp_mono (loadStaticNewP_wp it hok hnil hb0 h0.map h0.acts) ?_ ?_
    · intro _ _ h; exact h.elim
    · rintro f s ⟨hb, hf⟩
      exact ⟨hb, hf, BodyLog.ofBase hb h0.ordered⟩
  · rintro f s ⟨h1, h2, h3⟩
    exact ⟨f, s, h1, h2, h3, rfl, rfl⟩

/-! ### Whatever the names of the plugins are -/

theorem loadStaticNewP_low {s0 : LoadSt} {sel : GoMap (Option StaticPlugin)} (it : Iter) (hnil : ∃ k, sel.get? k = some none) (hacts : s0.acts = []) :
    wp (loadStaticNewP it sel) (fun _ _ => False) (fun _ s => ∀ a ∈ s.acts, a.stage = 1) s0 := by
  unfold loadStaticNewP
  have hall : ∀ k, k ∈ sortStrings (sel.range it .static) ↔ k ∈ sel.keys := by
    intro k; rw [mem_sortStrings, GoMap.mem_range]
  refine wp_forEach _ _ (fun done s => (∀ a ∈ s.acts, a.stage = 1) ∧ ∀ n ∈ done, sel.get? n ≠ some none) _ ⟨by rw [hacts]; simp, by simp⟩ ?_ ?_
  · rintro done n rest s hl ⟨hst, hd⟩
    have hmem : n ∈ sel.keys := (hall n).mp (by rw [hl]; simp)
    obtain ⟨v, hv⟩ := GoMap.mem_keys.mp hmem
    rw [hv]
    cases v with
    | none => unfold wp tagPanic; exact hst
    | some sp =>
      have hwp : wp (loadStaticPlugin sp) (fun _ s' => ∀ a ∈ s'.acts, a.stage = 1) (fun _ s' => ∀ a ∈ s'.acts, a.stage = 1) s := by
        unfold loadStaticPlugin
        simp only [wp_bind, wp_alloc]
        cases hl : staticMissing sp with
        | cons m ms => simp only [wp_throw]; exact hst
        | nil =>
          simp only [wp_bind, wp_emit]
          have h1 : ∀ a ∈ s.acts ++ [Act.callReloadable s.next], a.stage = 1 := by
            intro a ha
            rcases List.mem_append.mp ha with ha | ha
            · exact hst a ha
            · simp at ha; subst ha; rfl
          cases hr : sp.code.reloadable with
          | panics => simp only [invokeRet, wp_throw]; exact h1
          | ret rel =>
            simp only [invokeRet, wp_mpure, wp_bind, wp_emit]
            have h2 : ∀ a ∈ s.acts ++ [Act.callReloadable s.next] ++ [Act.callExport s.next], a.stage = 1 := by
              intro a ha
              rcases List.mem_append.mp ha with ha | ha
              · exact h1 a ha
              · simp at ha; subst ha; rfl
            cases he : sp.code.exportRet with
            | panics => simp only [wp_throw]; exact h2
            | ret exp =>
              simp only [wp_mpure, setPlugin, wp_modPm, wp_emit]
              intro a ha
              rcases List.mem_append.mp ha with ha | ha
              · exact h2 a ha
              · simp at ha; subst ha; rfl
      unfold wp at hwp
      unfold wp tagPanic wrapLoading
      simp only
      cases hx : loadStaticPlugin sp s with
      | mk e s' =>
        rw [hx] at hwp
        cases e with
        | ok a =>
          refine ⟨hwp, fun n' hn' => ?_⟩
          rcases List.mem_append.mp hn' with hn' | hn'
          · exact hd n' hn'
          · simp at hn'; subst hn'; rw [hv]; simp
        | err e => exact hwp
        | panic p => exact hwp
  · rintro s ⟨_, hd⟩
    obtain ⟨k, hk⟩ := hnil
    exact hd k ((hall k).mpr (GoMap.mem_keys.mpr ⟨_, hk⟩)) hk

theorem loadStaticP_low {s0 : LoadSt} (it : Iter) {sel : GoMap (Option StaticPlugin)} (data : Nat) (hnil : ∃ k, sel.get? k = some none) (hacts : s0.acts = []) :
    wp (loadStaticP it sel data) (fun _ _ => False) (fun f s => (∃ e, f = .inl e) ∧ ∀ a ∈ s.acts, a.stage = 1 ∨ ∃ i, a = .release i) s0 := by
  unfold loadStaticP
  refine wp_withCleanup (F := fun _ s => ∀ a ∈ s.acts, a.stage = 1) ?_ ?_
  · unfold loadStaticBodyP
    simp only [wp_bind, wp_get]
    split
    · simp only [wp_bind, wp_throw]; rw [hacts]; simp
    · simp only [wp_bind, wp_mpure]
      refine wp_mono (loadStaticNewP_low it hnil hacts) ?_ ?_
      · intro _ _ h; exact h.elim
      · intro f s h; exact h
  · intro f s h
    refine ⟨⟨_, rfl⟩, fun a ha => ?_⟩
    simp only [List.mem_append, List.mem_map] at ha
    rcases ha with ha | ⟨p, _, rfl⟩
    · exact .inl (h a ha)
    · exact .inr ⟨_, rfl⟩

end Hotswap
