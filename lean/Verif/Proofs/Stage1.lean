import Verif.Proofs.Base
import Verif.Spec.LoadErr

/-! The first stage of `loadPlugins`: duplicates, file infos, kept plugins, new plugins. -/

namespace Hotswap

variable [GoRuntime]

open M

theorem name2key_idem (s : Str) : name2key (name2key s) = name2key s := by
  unfold name2key
  rw [List.map_map]
  apply List.map_congr_left
  intro c _
  exact GoRuntime.toLower_idem c

/-! ### duplicates -/

theorem findDuplicate_none {it : Iter} {files : List Str} (h : findDuplicate it files = none) :
    (files.map fileKey).Nodup := by
  unfold findDuplicate at h
  rw [List.find?_eq_none] at h
  rw [List.nodup_iff_count_le_one]
  intro k
  by_cases hk : k ∈ files.map fileKey
  · have : k ∈ it.ord .counters (files.map fileKey).eraseDups :=
      (it.perm _ _).mem_iff.mpr (List.mem_eraseDups.mpr hk)
    have := h k this
    simp only [decide_eq_true_eq] at this
    have e : (files.map fileKey) = files.map (fun f => name2key (pluginName f)) := rfl
    rw [e]; omega
  · rw [List.count_eq_zero_of_not_mem hk]; omega

theorem findDuplicate_some {it : Iter} {files : List Str} {k : Str} (h : findDuplicate it files = some k) :
    1 < (files.map fileKey).count k := by
  unfold findDuplicate at h
  have := List.find?_some h
  simp only [decide_eq_true_eq] at this
  exact this

/-! ### file infos -/

/-- `info` describes file `f`. -/
def InfoOf (fs : FS) (f : Str) (info : FileInfo) : Prop :=
  info.name = pluginName f ∧ info.file = f ∧ fs.readFile f = some info.data ∧ info.sha = GoRuntime.sha1 info.data

theorem buildFileInfoMap_ok {fs : FS} {files : List Str} {m0 m : GoMap FileInfo}
    (hn : (files.map fileKey).Nodup) (hdis : ∀ f ∈ files, m0.get? (fileKey f) = none)
    (h : buildFileInfoMap fs files m0 = .ok m) :
    (∀ k, k ∉ files.map fileKey → m.get? k = m0.get? k) ∧
    (∀ f ∈ files, ∃ info, m.get? (fileKey f) = some info ∧ InfoOf fs f info) ∧
    m.size = m0.size + files.length := by
  induction files generalizing m0 with
  | nil => simp [buildFileInfoMap] at h; subst h; simp
  | cons f r ih =>
    rw [List.map_cons, List.nodup_cons] at hn
    unfold buildFileInfoMap at h
    cases hd : fs.readFile f with
    | none => rw [hd] at h; cases h
    | some d =>
      rw [hd] at h
      simp only at h
      have hf0 := hdis f (by simp)
      have hins : ∀ k, (fileInfoAdd m0 f d).get? k = if k = fileKey f then some ⟨pluginName f, f, d, GoRuntime.sha1 d⟩ else m0.get? k := by
        intro k; unfold fileInfoAdd; exact GoMap.get?_insert ..
      obtain ⟨h1, h2, h3⟩ := ih hn.2 (by
        intro g hg
        rw [hins, if_neg]
        · exact hdis g (List.mem_cons_of_mem _ hg)
        · intro he
          exact hn.1 (he ▸ List.mem_map.mpr ⟨g, hg, rfl⟩)) h
      refine ⟨?_, ?_, ?_⟩
      · intro k hk
        rw [List.map_cons, List.mem_cons, not_or] at hk
        rw [h1 k hk.2, hins, if_neg hk.1]
      · intro g hg
        rcases List.mem_cons.mp hg with rfl | hg
        · rw [h1 _ hn.1, hins, if_pos rfl]
          exact ⟨_, rfl, rfl, rfl, hd, rfl⟩
        · exact h2 g hg
      · rw [h3]
        have : (fileInfoAdd m0 f d).size = m0.size + 1 := by
          rw [GoMap.size_eq_keys, GoMap.size_eq_keys]
          unfold fileInfoAdd
          have : m0.get? (name2key (pluginName f)) = none := hf0
          simp only
          rw [GoMap.keys_insert_of_not_mem _ _ _ this]; rfl
        rw [this]; simp; omega

theorem buildFileInfoMap_err {fs : FS} {files : List Str} {m0 : GoMap FileInfo} {e : Err}
    (h : buildFileInfoMap fs files m0 = .error e) : ∃ f ∈ files, e = .readFile f ∧ fs.readFile f = none := by
  induction files generalizing m0 with
  | nil => simp [buildFileInfoMap] at h
  | cons f r ih =>
    unfold buildFileInfoMap at h
    cases hd : fs.readFile f with
    | none => rw [hd] at h; cases h; exact ⟨f, by simp, rfl, hd⟩
    | some d =>
      rw [hd] at h
      obtain ⟨g, hg, he⟩ := ih h
      exact ⟨g, List.mem_cons_of_mem _ hg, he⟩

/-! ### kept plugins -/

/-- The copy of a kept plugin (pluginManager.go:61-67). -/
def keptCopy (note : Note) (p : Plugin) : Plugin := { p with unchanged := true, note := note }

theorem keepPlugins_wp {om : Manager} {n0 : Nat} {pm0 : Manager} {s0 : LoadSt} {F : Fail → LoadSt → Prop}
    (hgood : SoundManager n0 om) (note : Note)
    {ks : List Str} (hnd : ks.Nodup) (hold : ∀ k ∈ ks, k ∈ om.pluginMap.keys)
    (hnew : ∀ k ∈ ks, s0.pm.pluginMap.get? k = none) (h : Base (some om) n0 pm0 s0)
    (hno : ∀ a ∈ s0.acts, ∃ i, a = .inc i) :
    wp (keepPlugins (some om) note ks)
      (fun _ s => Base (some om) n0 pm0 s ∧ s.next = s0.next ∧ (∀ a ∈ s.acts, ∃ i, a = .inc i) ∧
        (∀ k, s.pm.pluginMap.get? k = if k ∈ ks then (om.pluginMap.get? k).map (keptCopy note) else s0.pm.pluginMap.get? k) ∧
        s.pm.pluginMap.size = s0.pm.pluginMap.size + ks.length)
      F s0 := by
  unfold keepPlugins
  refine wp_forEach _ _ (fun done s => Base (some om) n0 pm0 s ∧ s.next = s0.next ∧ (∀ a ∈ s.acts, ∃ i, a = .inc i) ∧
        (∀ k, s.pm.pluginMap.get? k = if k ∈ done then (om.pluginMap.get? k).map (keptCopy note) else s0.pm.pluginMap.get? k) ∧
        s.pm.pluginMap.size = s0.pm.pluginMap.size + done.length) _
    ⟨h, rfl, hno, by simp, by simp⟩ ?_ (fun _ h => h)
  rintro done k rest s hl ⟨hb, hnx, hinc, hget, hsz⟩
  have hkd : k ∉ done := by
    rw [hl, List.nodup_append] at hnd
    intro hkd
    exact hnd.2.2 k hkd k (List.mem_cons_self ..) rfl
  obtain ⟨oldP, hp⟩ := GoMap.mem_keys.mp (hold k (by rw [hl]; simp))
  simp only [hp, addUnchanged, setPlugin, wp_bind, wp_emit, wp_modPm]
  have hkn : s.pm.pluginMap.get? k = none := by
    rw [hget k, if_neg hkd]; exact hnew k (by rw [hl]; simp)
  have hkey := hgood.keyed k oldP hp
  refine ⟨hb.keep hgood note hp hkn, hnx, ?_, ?_, ?_⟩
  · intro a ha
    rcases List.mem_append.mp ha with ha | ha
    · exact hinc a ha
    · simp at ha; exact ⟨_, ha⟩
  · intro k'
    rw [GoMap.get?_insert, hkey]
    by_cases hkk : k' = k
    · subst hkk
      simp [hp, keptCopy]
    · rw [if_neg hkk, hget k']
      simp [hkk]
  · rw [GoMap.size_eq_keys, hkey, GoMap.keys_insert_of_not_mem _ _ _ hkn]
    rw [GoMap.size_eq_keys] at hsz
    simp only [List.length_cons, hsz, List.length_append, List.length_nil]
    omega

/-! ### required functions -/

theorem lookupAll_ok {syms : Str → Option GoType} {items : List (Str × GoType)} {l : List Str}
    (hne : ∀ x ∈ items, x.1 ≠ []) (h : lookupAll syms items = .ok l) :
    l = (items.map Prod.fst).filter (fun s => (syms s).isNone) := by
  induction items generalizing l with
  | nil => simp [lookupAll] at h; simp [h]
  | cons x r ih =>
    obtain ⟨sym, t⟩ := x
    have hs : sym ≠ [] := hne (sym, t) (by simp)
    have hr : ∀ x ∈ r, x.1 ≠ [] := fun x hx => hne x (List.mem_cons_of_mem _ hx)
    unfold lookupAll at h
    have hlk : lookup (some syms) sym (some ⟨.ptr t, false, 0⟩) =
        match syms sym with
        | none => .notExist
        | some symTyp =>
          if GoRuntime.assignable symTyp t then .ok (.direct symTyp)
          else match symTyp with
            | .ptr e => if GoRuntime.assignable e t then .ok (.deref e) else .mismatch
            | _ => .mismatch := by
      simp [lookup, hs, isNil, GoType.isNilableKind]
      rfl
    rw [hlk] at h
    cases hsym : syms sym with
    | none =>
      simp only [hsym] at h
      cases hrest : lookupAll syms r with
      | error e => rw [hrest] at h; simp [Except.map] at h
      | ok l' =>
        rw [hrest] at h
        simp only [Except.map, Except.ok.injEq] at h
        subst h
        rw [ih hr hrest]
        simp [hsym]
    | some st =>
      rw [hsym] at h
      simp only at h
      have hok : lookupAll syms r = .ok l := by
        split at h
        · exact h
        · rename_i heq
          exfalso
          split at heq
          · cases heq
          · split at heq
            · split at heq <;> cases heq
            · cases heq
        · cases h
      rw [ih hr hok]
      simp [hsym]

theorem lookupAll_err {syms : Str → Option GoType} {items : List (Str × GoType)} {sym : Str}
    (hne : ∀ x ∈ items, x.1 ≠ []) (h : lookupAll syms items = .error sym) : ∃ t, (sym, t) ∈ items ∧ WrongType syms sym t := by
  induction items with
  | nil => simp [lookupAll] at h
  | cons x r ih =>
    obtain ⟨sy, t⟩ := x
    have hs : sy ≠ [] := hne (sy, t) (by simp)
    have hr : ∀ x ∈ r, x.1 ≠ [] := fun x hx => hne x (List.mem_cons_of_mem _ hx)
    have rest : lookupAll syms r = .error sym → ∃ t', (sym, t') ∈ (sy, t) :: r ∧ WrongType syms sym t' := by
      intro h
      obtain ⟨t', h1, h2⟩ := ih hr h
      exact ⟨t', List.mem_cons_of_mem _ h1, h2⟩
    unfold lookupAll at h
    split at h
    · exact rest h
    · cases hl : lookupAll syms r with
      | error e => rw [hl] at h; simp [Except.map] at h; subst h; exact rest hl
      | ok l => rw [hl] at h; simp [Except.map] at h
    · rename_i x hx1 hx2
      cases h
      refine ⟨t, by simp, ?_⟩
      simp only [lookup, hs, if_false, isNil, GoType.isNilableKind, Bool.and_false, Bool.false_eq_true] at hx1 hx2
      cases hsym : syms sym with
      | none => rw [hsym] at hx2; exact absurd rfl hx2
      | some st =>
        rw [hsym] at hx1
        refine ⟨st, hsym, ?_, ?_⟩
        · cases ha : GoRuntime.assignable st t with
          | false => rfl
          | true => simp only [ha, if_true] at hx1; exact absurd rfl (hx1 _)
        · rintro e rfl
          cases ha : GoRuntime.assignable e t with
          | false => rfl
          | true =>
            cases hb : GoRuntime.assignable (.ptr e) t with
            | true => simp only [hb, if_true] at hx1; exact absurd rfl (hx1 _)
            | false => simp only [hb, ha, Bool.false_eq_true, if_false, if_true] at hx1; exact absurd rfl (hx1 _)

omit [GoRuntime] in
theorem pluginFuncItems_ne : ∀ x ∈ pluginFuncItems, x.1 ≠ [] := by
  decide

/-- All lookups succeed, so that the image is complete. -/
theorem lookupAll_complete {syms : Str → Option GoType} {items : List (Str × GoType)} (hne : ∀ x ∈ items, x.1 ≠ []) (h : lookupAll syms items = .ok []) :
    ∀ sym t, (sym, t) ∈ items → HasType syms sym t := by
  induction items with
  | nil => intro sym t hm; cases hm
  | cons x r ih =>
    obtain ⟨sy, ty⟩ := x
    have hs : sy ≠ [] := hne (sy, ty) (by simp)
    have hr : ∀ x ∈ r, x.1 ≠ [] := fun x hx => hne x (List.mem_cons_of_mem _ hx)
    unfold lookupAll at h
    have hlk : lookup (some syms) sy (some ⟨.ptr ty, false, 0⟩) =
        match syms sy with
        | none => .notExist
        | some symTyp =>
          if GoRuntime.assignable symTyp ty then .ok (.direct symTyp)
          else match symTyp with
            | .ptr e => if GoRuntime.assignable e ty then .ok (.deref e) else .mismatch
            | _ => .mismatch := by
      simp [lookup, hs, isNil, GoType.isNilableKind]
      rfl
    rw [hlk] at h
    cases hsym : syms sy with
    | none =>
      simp only [hsym] at h
      cases hrest : lookupAll syms r with
      | error e => rw [hrest] at h; simp [Except.map] at h
      | ok l' => rw [hrest] at h; simp [Except.map] at h
    | some st =>
      rw [hsym] at h
      simp only at h
      have hgood : (GoRuntime.assignable st ty = true ∨ ∃ e, st = .ptr e ∧ GoRuntime.assignable e ty = true) ∧ lookupAll syms r = .ok [] := by
        by_cases h1 : GoRuntime.assignable st ty = true
        · rw [if_pos h1] at h; exact ⟨.inl h1, h⟩
        · rw [if_neg h1] at h
          cases st with
          | ptr e =>
            by_cases h2 : GoRuntime.assignable e ty = true
            · simp only [h2, if_true] at h; exact ⟨.inr ⟨e, rfl, h2⟩, h⟩
            · simp only [if_neg h2] at h; cases h
          | _ => cases h
      intro sym t hm
      rcases List.mem_cons.mp hm with he | hm
      · cases he; exact ⟨st, hsym, hgood.1⟩
      · exact ih hr hgood.2 sym t hm

omit [GoRuntime] in
theorem pluginFuncItems_eq : pluginFuncItems = requiredSignatures.map (fun x => (x.1, x.2.typ)) := rfl

omit [GoRuntime] in
theorem pluginFuncItems_names : pluginFuncItems.map Prod.fst = requiredFunctions := rfl

omit [GoRuntime] in
theorem pluginFuncItems_mem {sym : Str} {t : GoType} (h : (sym, t) ∈ pluginFuncItems) : ∃ sig, (sym, sig) ∈ requiredSignatures ∧ t = sig.typ := by
  rw [pluginFuncItems_eq] at h
  obtain ⟨x, hx, he⟩ := List.mem_map.mp h
  cases he
  exact ⟨_, hx, rfl⟩

omit [GoRuntime] in
theorem mem_pluginFuncItems {sym : Str} {sig : Signature} (h : (sym, sig) ∈ requiredSignatures) : (sym, sig.typ) ∈ pluginFuncItems := by
  rw [pluginFuncItems_eq]
  exact List.mem_map.mpr ⟨_, h, rfl⟩

theorem complete_of_lookupAll {syms : Str → Option GoType} (h : lookupAll syms pluginFuncItems = .ok []) : Complete syms :=
  fun _ _ hm => lookupAll_complete pluginFuncItems_ne h _ _ (mem_pluginFuncItems hm)

theorem wrong_of_lookupAll {syms : Str → Option GoType} {sym : Str} (h : lookupAll syms pluginFuncItems = .error sym) :
    ∃ sig, (sym, sig) ∈ requiredSignatures ∧ WrongType syms sym sig.typ := by
  obtain ⟨t, h1, h2⟩ := lookupAll_err pluginFuncItems_ne h
  obtain ⟨sig, h3, rfl⟩ := pluginFuncItems_mem h1
  exact ⟨sig, h3, h2⟩

/-! ### new plugins -/

/-- Facts about errors of the loading loop. -/
def NewFailOK (fs : FS) (infoMap : GoMap FileInfo) (s : LoadSt) : Fail → Prop
  | .inl (.loading n e) => ∃ k info, infoMap.get? k = some info ∧ n = info.name ∧ FileFault fs info.file e ∧
      ∀ l, e = .missing l → s.acts.getLast? = some (.openPlugin info.file)
  | .inl (.panicked c p) => (c = none ∧ p = .nilDeref ∧ ∃ k info, infoMap.get? k = some info ∧ name2key info.name ≠ info.name) ∨
      (p = .user ∧ ∃ k info, infoMap.get? k = some info ∧ c = some info.name ∧ fs.openPlugin info.file = .panics ∧ s.pm.pluginMap.get? k = none ∧ s.acts.getLast? = some (.openPlugin info.file))
  | _ => False

/-- State of the loading loop after the names `done`. -/
structure NewInv (old : Option Manager) (n0 : Nat) (pm0 : Manager) (fs : FS) (infoMap : GoMap FileInfo) (s1 : LoadSt)
    (done : List Str) (s : LoadSt) : Prop where
  base : Base old n0 pm0 s
  mono : s1.next ≤ s.next
  new : ∀ k ∈ done, ∃ info p, infoMap.get? k = some info ∧ s.pm.pluginMap.get? k = some p ∧ BuiltFrom fs info.file info.data p
  others : ∀ k, k ∉ done → s.pm.pluginMap.get? k = s1.pm.pluginMap.get? k

/-- What the loading loop does for one new plugin. -/
def newActs (m : GoMap Plugin) (k : Str) : List Act :=
  match m.get? k with
  | none => []
  | some p => [.openPlugin p.file, .callReloadable p.inst, .callExport p.inst, .register p.inst]

/-- What the loading loop has done after the names `done`. -/
def NewLog (s1 : LoadSt) (done : List Str) (s : LoadSt) : Prop := s.acts = s1.acts ++ done.flatMap (newActs s.pm.pluginMap)

theorem loadPlugin_wp {old : Option Manager} {n0 : Nat} {pm0 : Manager} {fs : FS} {infoMap : GoMap FileInfo}
    {s1 s : LoadSt} {done : List Str} {name : Str} {info : FileInfo}
    (hold : ∀ om, old = some om → SoundManager n0 om)
    (hinfo : infoMap.get? name = some info) (hname : info.name = name) (hlow : name2key name = name)
    (hof : InfoOf fs info.file info)
    (hkd : name ∉ done) (hnew : s1.pm.pluginMap.get? name = none)
    (h : NewInv old n0 pm0 fs infoMap s1 done s) (hlog : NewLog s1 done s) :
    wp (tagPanic (some info.name) (wrapLoading info.name (loadPlugin fs info)))
      (fun _ s' => NewInv old n0 pm0 fs infoMap s1 (done ++ [name]) s' ∧ NewLog s1 (done ++ [name]) s')
      (fun f s' => Base old n0 pm0 s' ∧ NewFailOK fs infoMap s' f) s := by
  have hwrap : wp (loadPlugin fs info) (fun _ s' => NewInv old n0 pm0 fs infoMap s1 (done ++ [name]) s' ∧ NewLog s1 (done ++ [name]) s')
      (fun f s' => Base old n0 pm0 s' ∧ match f with
        | .inl e => FileFault fs info.file e ∧ ∀ l, e = .missing l → s'.acts.getLast? = some (.openPlugin info.file)
        | .inr p => p = .user ∧ fs.openPlugin info.file = .panics ∧ s'.pm.pluginMap.get? name = none ∧ s'.acts.getLast? = some (.openPlugin info.file)) s := by
    unfold loadPlugin
    have hb := h.base
    simp only [wp_bind]
    cases hc : fs.copyOk info.file with
    | false => simp only [if_true, wp_throw]; exact ⟨hb, hc, by intro l hl; cases hl⟩
    | true =>
      simp only [Bool.true_eq_false, if_false, wp_pure, wp_alloc, wp_emit]
      have hb1 := hb.alloc
      have hb2 := hb1.plain (a := .openPlugin info.file) rfl rfl rfl
      cases ho : fs.openPlugin info.file with
      | err => simp only [wp_throw]; exact ⟨hb2, ho, by intro l hl; cases hl⟩
      | panics => simp only [wp_panic]; exact ⟨hb2, by simp [h.others name hkd, hnew]⟩
      | image syms code =>
        simp only
        cases hl : lookupAll syms pluginFuncItems with
        | error sym => simp only [wp_throw]; exact ⟨hb2, ⟨syms, code, ho, wrong_of_lookupAll hl⟩, by intro l hl; cases hl⟩
        | ok l =>
          cases l with
          | cons m ms =>
            simp only [wp_throw]
            refine ⟨hb2, ⟨syms, code, ho, lookupAll_ok pluginFuncItems_ne hl, by simp⟩, ?_⟩
            simp
          | nil =>
            simp only [wp_bind, wp_emit]
            have hrng : n0 ≤ s.next ∧ s.next < s.next + 1 := ⟨Nat.le_of_lt hb.lo, Nat.lt_succ_self _⟩
            have hnone : ∀ b ∈ s.acts ++ [Act.openPlugin info.file], ∀ g, hookOf b = some (s.next, g) → False := by
              intro b hbm g hg
              rcases List.mem_append.mp hbm with hbm | hbm
              · have := (hb.range b hbm _ _ hg).2; omega
              · simp at hbm; subst hbm; simp [hookOf] at hg
            have hb3 := hb2.hook (a := .callReloadable s.next) (i := s.next) (g := .reloadable) rfl rfl rfl hrng
              (fun b hbm g hg => (hnone b hbm g hg).elim)
            cases hr : code.reloadable with
            | panics =>
              simp only [invokeRet, wp_throw]
              exact ⟨hb3, ⟨hof.1, syms, code, ho, (lookupAll_ok pluginFuncItems_ne hl).symm, .inl hr⟩, by intro l hl; cases hl⟩
            | ret rel =>
              simp only [invokeRet, wp_mpure, wp_bind, wp_emit]
              have hb4 := hb3.hook (a := .callExport s.next) (i := s.next) (g := .export) rfl rfl rfl hrng (by
                intro b hbm g hg
                rcases List.mem_append.mp hbm with hbm | hbm
                · exact (hnone b hbm g hg).elim
                · simp at hbm; subst hbm; simp [hookOf] at hg; subst hg; decide)
              cases he : code.exportRet with
              | panics =>
                simp only [wp_throw]
                exact ⟨hb4, ⟨hof.1, syms, code, ho, (lookupAll_ok pluginFuncItems_ne hl).symm, .inr he⟩, by intro l hl; cases hl⟩
              | ret exp =>
                simp only [wp_mpure, setPlugin, wp_modPm, wp_emit]
                have hkey : name2key info.name = name := by rw [hname]; exact hlow
                have hcur : s.pm.pluginMap.get? name = none := by rw [h.others name hkd]; exact hnew
                rw [hkey]
                refine ⟨⟨?_, Nat.le_succ_of_le h.mono, ?_, ?_⟩, ?_⟩
                · refine hb4.enter (k := name) (a := .register s.next) hkey hcur ?_ (.inr ⟨rfl, Nat.le_of_lt hb.lo, Nat.lt_succ_self _, rfl, rfl, hr, he⟩) rfl rfl rfl ?_ ?_
                  · intro hin
                    rcases hb.mem_insts hin with ⟨om, k, p, hom, hg, hpi, _⟩ | ⟨_, hlt⟩
                    · have := (hold om hom).fresh p.inst (List.mem_map.mpr ⟨p, GoMap.mem_vals.mpr ⟨k, hg⟩, rfl⟩)
                      have := hb.lo
                      simp only at hpi
                      omega
                    · simp at hlt
                  · intro i hi; cases hi
                  · intro i hi; cases hi; exact hrng
                · intro k hk
                  rcases List.mem_append.mp hk with hk | hk
                  · obtain ⟨inf, p, h1, h2, h3⟩ := h.new k hk
                    refine ⟨inf, p, h1, ?_, h3⟩
                    rw [GoMap.get?_insert, if_neg (fun e : k = name => hkd (e ▸ hk))]
                    exact h2
                  · simp at hk; subst hk
                    refine ⟨info, _, hinfo, by rw [GoMap.get?_insert, if_pos rfl], ?_⟩
                    exact ⟨rfl, rfl, hof.1, rfl, hof.2.2.2, by simp only; rw [hname]; exact hlow, ⟨syms, ho, rfl, complete_of_lookupAll hl⟩, hr, he⟩
                · intro k hk
                  rw [List.mem_append, not_or] at hk
                  rw [GoMap.get?_insert, if_neg (by simpa using hk.2)]
                  exact h.others k hk.1
                · unfold NewLog at hlog ⊢
                  rw [List.flatMap_append]
                  have e : ∀ q : Plugin, done.flatMap (newActs (s.pm.pluginMap.insert name q)) = done.flatMap (newActs s.pm.pluginMap) := by
                    intro q
                    refine List.flatMap_congr ?_
                    intro k hk
                    unfold newActs
                    rw [GoMap.get?_insert, if_neg (fun e : k = name => hkd (e ▸ hk))]
                  simp only [e, hlog, newActs, GoMap.get?_insert, List.flatMap_singleton, if_true, List.append_assoc, List.cons_append, List.nil_append]
  -- wrapping of errors and tagging of panics
  unfold wp tagPanic wrapLoading
  unfold wp at hwrap
  cases hx : loadPlugin fs info s with
  | mk e s' =>
    rw [hx] at hwrap
    cases e with
    | ok a => exact hwrap
    | err e =>
      exact ⟨hwrap.1, name, info, hinfo, rfl, hwrap.2⟩
    | panic p =>
      refine ⟨hwrap.1, ?_⟩
      have := hwrap.2
      simp only at this
      exact .inr ⟨this.1, name, info, hinfo, rfl, this.2⟩

theorem loadNew_wp {old : Option Manager} {n0 : Nat} {pm0 : Manager} {fs : FS} {infoMap : GoMap FileInfo}
    {s1 : LoadSt} (it : Iter)
    (hold : ∀ om, old = some om → SoundManager n0 om)
    (hinfo : ∀ k info, infoMap.get? k = some info → InfoOf fs info.file info ∧ name2key info.name = k)
    (hnew : ∀ k ∈ infoMap.keys, s1.pm.pluginMap.get? k = none)
    (h : Base old n0 pm0 s1) :
    wp (loadNew it fs infoMap)
      (fun _ s' => NewInv old n0 pm0 fs infoMap s1 infoMap.keys s' ∧
        ∃ names, names.Pairwise (· ≤ ·) ∧ names.Nodup ∧ (∀ k, k ∈ names ↔ k ∈ infoMap.keys) ∧ NewLog s1 names s')
      (fun f s' => Base old n0 pm0 s' ∧ NewFailOK fs infoMap s' f) s1 := by
  unfold loadNew
  have hnames : (infoNames it infoMap).Perm (infoMap.vals.map (·.name)) := by
    unfold infoNames
    refine (sortStrings_perm _).trans ?_
    have := (GoMap.rangeKV_vals_perm it .names infoMap).map (·.name)
    rwa [List.map_map] at this
  have hkeys : (infoMap.vals.map (·.name)).map name2key = infoMap.keys := by
    unfold GoMap.vals GoMap.keys
    rw [List.map_map, List.map_map]
    apply List.map_congr_left
    intro e he
    exact (hinfo e.1 e.2 (GoMap.get?_eq_some.mpr he)).2
  have hnn : (infoNames it infoMap).Nodup := by
    have : (infoMap.vals.map (·.name)).Nodup := by
      refine List.Nodup.of_map name2key ?_
      rw [hkeys]; exact infoMap.keys_nodup
    exact hnames.symm.nodup this
  -- a name that is found is lower-case and belongs to the info found
  have hfound : ∀ name info, infoMap.get? name = some info → name ∈ infoNames it infoMap → name2key name = name ∧ info.name = name := by
    intro name info hg hm
    have hk := (hinfo name info hg).2
    have hlow : name2key name = name := by rw [← hk, name2key_idem]
    refine ⟨hlow, ?_⟩
    have := hnames.mem_iff.mp hm
    obtain ⟨inf, hv, hn⟩ := List.mem_map.mp this
    obtain ⟨k', hk'⟩ := GoMap.mem_vals.mp hv
    have h2 := (hinfo k' inf hk').2
    rw [hn, hlow] at h2
    subst h2
    rw [hg] at hk'; cases hk'; exact hn
  have hmain : wp (forEach (infoNames it infoMap) (fun name =>
      match infoMap.get? name with
      | none => tagPanic none (M.panic .nilDeref)
      | some info => tagPanic (some info.name) (wrapLoading info.name (loadPlugin fs info))))
      (fun _ s' => NewInv old n0 pm0 fs infoMap s1 (infoNames it infoMap) s' ∧ NewLog s1 (infoNames it infoMap) s')
      (fun f s' => Base old n0 pm0 s' ∧ NewFailOK fs infoMap s' f) s1 := by
    refine wp_forEach _ _ (fun done s => NewInv old n0 pm0 fs infoMap s1 done s ∧ NewLog s1 done s) _
      ⟨⟨h, Nat.le_refl _, by simp, fun _ _ => rfl⟩, by simp [NewLog]⟩ ?_ (fun _ h => h)
    rintro done name rest s hl ⟨hinv, hlog⟩
    cases hg : infoMap.get? name with
    | none =>
      show wp (tagPanic none (M.panic .nilDeref)) _ _ s
      unfold wp tagPanic M.panic
      refine ⟨hinv.base, .inl ⟨rfl, rfl, ?_⟩⟩
      obtain ⟨inf, hv, hn⟩ := List.mem_map.mp (hnames.mem_iff.mp (by rw [hl]; simp : name ∈ infoNames it infoMap))
      obtain ⟨k', hk'⟩ := GoMap.mem_vals.mp hv
      refine ⟨k', inf, hk', ?_⟩
      intro he
      have h2 := (hinfo k' inf hk').2
      rw [he, hn] at h2
      rw [h2] at hg
      rw [hg] at hk'; cases hk'
    | some info =>
      obtain ⟨hlow, hn⟩ := hfound name info hg (by rw [hl]; simp)
      refine loadPlugin_wp hold hg hn hlow (hinfo name info hg).1 ?_ (hnew name (GoMap.mem_keys.mpr ⟨_, hg⟩)) hinv hlog
      rw [hl, List.nodup_append] at hnn
      intro hkd
      exact hnn.2.2 name hkd name (List.mem_cons_self ..) rfl
  refine wp_mono hmain ?_ (fun _ _ h => h)
  rintro _ s' ⟨hinv, hlog⟩
  -- all names were found, so the names are the keys
  have hsame : ∀ k, k ∈ infoNames it infoMap ↔ k ∈ infoMap.keys := by
    intro k
    constructor
    · intro hk
      obtain ⟨info, _, hg, _⟩ := hinv.new k hk
      exact GoMap.mem_keys.mpr ⟨_, hg⟩
    · intro hk
      obtain ⟨info, hg⟩ := GoMap.mem_keys.mp hk
      have hm : info.name ∈ infoNames it infoMap :=
        hnames.mem_iff.mpr (List.mem_map.mpr ⟨info, GoMap.mem_vals.mpr ⟨k, hg⟩, rfl⟩)
      obtain ⟨info', _, hg', _⟩ := hinv.new _ hm
      obtain ⟨hlow, _⟩ := hfound _ info' hg' hm
      have := (hinfo k info hg).2
      rw [hlow] at this
      rw [← this]; exact hm
  exact ⟨⟨hinv.base, hinv.mono, fun k hk => hinv.new k ((hsame k).mpr hk), fun k hk => hinv.others k (fun hm => hk ((hsame k).mp hm))⟩,
    _, sortStrings_sorted _, hnn, hsame, hlog⟩

end Hotswap
