import Verif.Proofs.LogErase

/-! What a load has decided about its files when it writes the first line. -/

namespace Hotswap

variable [GoRuntime]

open M

/-- What is decided about a file: pluginManager.go:116-128. -/
inductive Decided (fs : FS) (old : Option Manager) (m : GoMap FileInfo) (pm : Manager) (f : Str) (d : Nat) : Prop
  | notReloadable (q : Plugin) (had : hadFor old f = some q) (rel : q.reloadable = false)
      (kept : pm.pluginMap.get? (fileKey f) = some (keptCopy .notReloadable q)) (out : m.get? (fileKey f) = none)
  | unchanged (q : Plugin) (had : hadFor old f = some q) (rel : q.reloadable = true) (sha : GoRuntime.sha1 d = q.sha)
      (kept : pm.pluginMap.get? (fileKey f) = some (keptCopy .unchanged q)) (out : m.get? (fileKey f) = none)
  | toLoad (info : FileInfo) (isInfo : InfoOf fs f info) (data : info.data = d) (had : ∀ q, hadFor old f = some q → q.reloadable = true ∧ GoRuntime.sha1 d ≠ q.sha)
      (kept : pm.pluginMap.get? (fileKey f) = none) (out : m.get? (fileKey f) = some info)

/-- The state in which the first line is written. -/
structure KeepDone (old : Option Manager) (n0 : Nat) (pm0 : Manager) (fs : FS) (files : List Str) (m : GoMap FileInfo) (s : LoadSt) : Prop where
  base : Base old n0 pm0 s
  incs : ∀ a ∈ s.acts, a.isInc = true
  nodup : (files.map fileKey).Nodup
  fate : ∀ f ∈ files, ∃ d, fs.readFile f = some d ∧ Decided fs old m s.pm f d
  only : ∀ k p, s.pm.pluginMap.get? k = some p → ∃ f ∈ files, fileKey f = k
  onlyInfo : ∀ k info, m.get? k = some info → ∃ f ∈ files, fileKey f = k ∧ InfoOf fs f info

/-- `keepStage` fails before it has done anything. -/
theorem keepStage_wp {old : Option Manager} {n0 : Nat} {s0 : LoadSt} (it : Iter) (fs : FS) (files : List Str)
    (hgood : ∀ om, old = some om → SoundManager n0 om)
    (hn : n0 < s0.next) (hpm : s0.pm.pluginMap = .empty) (hacts : s0.acts = []) :
    wp (keepStage it fs files old) (fun m s => KeepDone old n0 s0.pm fs files m s) (fun _ s => s = s0) s0 := by
  have hb0 : Base old n0 s0.pm s0 := by
    refine ⟨?_, ?_, ?_, hn, ?_, rfl, ?_, ?_, ?_, ?_, ?_⟩ <;> simp [hpm, hacts, Keyed, Manager.insts, GoMap.vals, GoMap.empty, acquired, HooksIncr, GoMap.get?]
  unfold keepStage
  simp only [wp_bind, wp_get]
  have hsz : s0.pm.pluginMap.size = 0 := by rw [hpm]; rfl
  rw [if_neg (by omega)]
  cases hd : findDuplicate it files with
  | some k => simp only [wp_throw]
  | none =>
    have hnd := findDuplicate_none hd
    simp only
    cases hbi : buildFileInfoMap fs files .empty with
    | error e => simp only [wp_throw]
    | ok m =>
      simp only [wp_bind]
      obtain ⟨hm1, hm2, hm3⟩ := buildFileInfoMap_ok hnd (fun _ _ => rfl) hbi
      have hmsz : m.size = files.length := by rw [hm3]; simp [GoMap.empty, GoMap.size]
      have hinfo : ∀ k info, m.get? k = some info → ∃ f ∈ files, fileKey f = k ∧ InfoOf fs f info := by
        intro k info hk
        by_cases hkf : k ∈ files.map fileKey
        · obtain ⟨f, hf, rfl⟩ := List.mem_map.mp hkf
          obtain ⟨info', h1, h2⟩ := hm2 f hf
          rw [hk] at h1; cases h1
          exact ⟨f, hf, rfl, h2⟩
        · rw [hm1 k hkf] at hk; cases hk
      have hs0none : ∀ k, s0.pm.pluginMap.get? k = none := by intro k; rw [hpm]; rfl
      refine wp_mono (keep_wp hgood .notReloadable (F := fun _ s => s = s0) (GoMap.range_nodup ..) ?_ (fun k _ => hs0none k) hb0 (by simp [hacts])) ?_ (fun _ _ h => h)
      · intro k hk
        rw [GoMap.mem_range, GoMap.mem_keys] at hk
        obtain ⟨v, hv⟩ := hk
        rw [GoMap.get?_filter] at hv
        intro hnone
        have : isNotReloadable old k = false := by
          unfold isNotReloadable
          cases old with
          | none => rfl
          | some om =>
            have : om.pluginMap.get? k = none := hnone
            simp [this]
        cases hmk : m.get? k with
        | none => rw [hmk] at hv; cases hv
        | some v => rw [hmk] at hv; simp [this] at hv
      rintro _ s1 ⟨hb1, hn1, hi1, hg1, hz1⟩
      have hmem1 : ∀ k, k ∈ (m.filter (fun k _ => isNotReloadable old k)).range it .notReloadable ↔
          k ∈ m.keys ∧ isNotReloadable old k = true := by
        intro k
        rw [GoMap.mem_range, GoMap.mem_keys, GoMap.mem_keys]
        rw [GoMap.get?_filter]
        cases hmk : m.get? k with
        | none => simp
        | some v => simp
      have hmem2 : ∀ k, k ∈ ((m.filter (fun k _ => !isNotReloadable old k)).filter (fun k info => isUnchanged old k info)).range it .unchanged ↔
          ∃ info, m.get? k = some info ∧ isNotReloadable old k = false ∧ isUnchanged old k info = true := by
        intro k
        rw [GoMap.mem_range, GoMap.mem_keys]
        simp only [GoMap.get?_filter]
        cases hmk : m.get? k with
        | none => simp
        | some v =>
          cases h1 : isNotReloadable old k <;> simp
      refine wp_mono (keep_wp hgood .unchanged (F := fun _ s => s = s0) (GoMap.range_nodup ..) ?_ ?_ hb1 hi1) ?_ (fun _ _ h => h)
      · intro k hk hnone
        obtain ⟨info, _, _, hu⟩ := (hmem2 k).mp hk
        unfold isUnchanged at hu
        cases old with
        | none => simp at hu
        | some om =>
          have : om.pluginMap.get? k = none := hnone
          simp [this] at hu
      · intro k hk
        obtain ⟨info, _, hnr, hu⟩ := (hmem2 k).mp hk
        rw [hg1, if_neg, hs0none]
        rw [hmem1, hnr]; simp
      rintro _ s2 ⟨hb2, hn2, hi2, hg2, hz2⟩
      simp only [wp_get]
      have hsizes : ((m.filter (fun k _ => !isNotReloadable old k)).filter (fun k info => !isUnchanged old k info)).size + s2.pm.pluginMap.size = files.length := by
        rw [hz2, hz1, hsz]
        have e1 := GoMap.size_filter_not m (fun k _ => isNotReloadable old k)
        have e2 := GoMap.size_filter_not (m.filter (fun k _ => !isNotReloadable old k)) (fun k info => isUnchanged old k info)
        have l1 : ((m.filter (fun k _ => isNotReloadable old k)).range it .notReloadable).length = (m.filter (fun k _ => isNotReloadable old k)).size := by
          rw [(GoMap.range_perm ..).length_eq, GoMap.size_eq_keys]
        have l2 : (((m.filter (fun k _ => !isNotReloadable old k)).filter (fun k info => isUnchanged old k info)).range it .unchanged).length
            = ((m.filter (fun k _ => !isNotReloadable old k)).filter (fun k info => isUnchanged old k info)).size := by
          rw [(GoMap.range_perm ..).length_eq, GoMap.size_eq_keys]
        rw [l1, l2]
        omega
      rw [if_neg (by omega)]
      simp only [wp_mpure]
      have hs2 : ∀ k, s2.pm.pluginMap.get? k =
          if k ∈ ((m.filter (fun k _ => !isNotReloadable old k)).filter (fun k info => isUnchanged old k info)).range it .unchanged then (oldGet old k).map (keptCopy .unchanged)
          else if k ∈ (m.filter (fun k _ => isNotReloadable old k)).range it .notReloadable then (oldGet old k).map (keptCopy .notReloadable)
          else none := by
        intro k; rw [hg2, hg1, hs0none]
      have hmem3 : ∀ k info, ((m.filter (fun k _ => !isNotReloadable old k)).filter (fun k info => !isUnchanged old k info)).get? k = some info ↔
          m.get? k = some info ∧ isNotReloadable old k = false ∧ isUnchanged old k info = false := by
        intro k info
        simp only [GoMap.get?_filter]
        cases hmk : m.get? k with
        | none => simp
        | some v =>
          cases h1 : isNotReloadable old k
          · cases h2 : isUnchanged old k v
            · simp +contextual [← h2]
            · simp +contextual [← h2]
          · simp
      refine ⟨hb2, ?_, hnd, ?_, ?_, ?_⟩
      · intro a ha
        obtain ⟨i, rfl⟩ := hi2 a ha
        rfl
      · intro f hf
        obtain ⟨info, hmk, hin⟩ := hm2 f hf
        obtain ⟨h1, h2, h3, h4⟩ := hin
        refine ⟨info.data, h3, ?_⟩
        have hadEq : hadFor old f = oldGet old (fileKey f) := rfl
        have none_of : ∀ {k : Str}, (∀ info', m.get? k = some info' → isNotReloadable old k = false → isUnchanged old k info' = true) →
            ((m.filter (fun k _ => !isNotReloadable old k)).filter (fun k info => !isUnchanged old k info)).get? k = none := by
          intro k h
          cases hg : ((m.filter (fun k _ => !isNotReloadable old k)).filter (fun k info => !isUnchanged old k info)).get? k with
          | none => rfl
          | some info' =>
            obtain ⟨h5, h6, h7⟩ := (hmem3 _ _).mp hg
            rw [h _ h5 h6] at h7
            cases h7
        cases hnr : isNotReloadable old (fileKey f) with
        | true =>
          have hnr' := hnr
          unfold isNotReloadable at hnr
          cases hold : old with
          | none => rw [hold] at hnr; simp at hnr
          | some om =>
            rw [hold] at hnr
            simp only at hnr
            cases hop : om.pluginMap.get? (fileKey f) with
            | none => rw [hop] at hnr; simp at hnr
            | some oldP =>
              rw [hop] at hnr
              simp only [Bool.not_eq_true'] at hnr
              refine hold ▸ .notReloadable oldP (by rw [hadEq, hold]; exact hop) hnr ?_ ?_
              · rw [hs2, if_neg, if_pos]
                · simp [oldGet, hold, hop]
                · rw [hmem1]; exact ⟨GoMap.mem_keys.mpr ⟨_, hmk⟩, hnr'⟩
                · rw [hmem2]; rintro ⟨_, _, h, _⟩; rw [hnr'] at h; cases h
              · refine none_of (fun _ _ h => ?_)
                rw [hnr'] at h; cases h
        | false =>
          cases hun : isUnchanged old (fileKey f) info with
          | true =>
            have hun0 := hun
            unfold isUnchanged at hun
            cases hold : old with
            | none => rw [hold] at hun; simp at hun
            | some om =>
              rw [hold] at hun
              simp only at hun
              cases hop : om.pluginMap.get? (fileKey f) with
              | none => rw [hop] at hun; simp at hun
              | some oldP =>
                rw [hop] at hun
                simp only [beq_iff_eq] at hun
                have hrel : oldP.reloadable = true := by
                  simpa [isNotReloadable, hold, hop] using hnr
                refine hold ▸ .unchanged oldP (by rw [hadEq, hold]; exact hop) hrel (h4 ▸ hun) ?_ ?_
                · rw [hs2, if_pos]
                  · simp [oldGet, hold, hop]
                  · rw [hmem2]; exact ⟨info, hmk, hnr, hun0⟩
                · refine none_of (fun info' he _ => ?_)
                  rw [hmk] at he; cases he
                  exact hun0
          | false =>
            refine .toLoad info ⟨h1, h2, h3, h4⟩ rfl ?_ ?_ ((hmem3 _ _).mpr ⟨hmk, hnr, hun⟩)
            · intro q hq
              rw [hadEq] at hq
              unfold oldGet at hq
              cases hold : old with
              | none => rw [hold] at hq; cases hq
              | some om =>
                rw [hold] at hq
                have hop : om.pluginMap.get? (fileKey f) = some q := hq
                refine ⟨by simpa [isNotReloadable, hold, hop] using hnr, ?_⟩
                rw [← h4]
                simpa [isUnchanged, hold, hop] using hun
            · rw [hs2, if_neg, if_neg]
              · rw [hmem1, hnr]; simp
              · rw [hmem2]
                rintro ⟨info', h1, _, h2⟩
                rw [hmk] at h1; cases h1
                rw [hun] at h2; cases h2
      · intro k p hp
        have hmk : ∃ info, m.get? k = some info := by
          rw [hs2] at hp
          split at hp
          · rename_i h; obtain ⟨info, h, _⟩ := (hmem2 k).mp h; exact ⟨info, h⟩
          · split at hp
            · rename_i h; exact GoMap.mem_keys.mp ((hmem1 k).mp h).1
            · cases hp
        obtain ⟨info, hmk⟩ := hmk
        obtain ⟨f, hf, hk, _⟩ := hinfo k info hmk
        exact ⟨f, hf, hk⟩
      · intro k info hk
        exact hinfo k info ((hmem3 _ _).mp hk).1

/-- The three lists tell what has been decided. -/
theorem KeepDone.statsTrue {old : Option Manager} {n0 : Nat} {pm0 : Manager} {fs : FS} {files : List Str} {m : GoMap FileInfo} {s : LoadSt}
    (h : KeepDone old n0 pm0 fs files m s) (it : Iter) :
    (((s.pm.pluginMap.rangeKV it .stats).map Prod.snd).all (fun p => p.note == .notReloadable || p.note == .unchanged)) = true ∧
    StatsTrue old fs files ((((s.pm.pluginMap.rangeKV it .stats).map Prod.snd).filter (fun p => p.note == .notReloadable)).map (·.name))
      ((((s.pm.pluginMap.rangeKV it .stats).map Prod.snd).filter (fun p => p.note == .unchanged)).map (·.name)) (infoNames it m) := by
  have hmem : ∀ p, p ∈ (s.pm.pluginMap.rangeKV it .stats).map Prod.snd ↔ ∃ k, s.pm.pluginMap.get? k = some p := by
    intro p
    rw [(GoMap.rangeKV_vals_perm it .stats s.pm.pluginMap).mem_iff]
    exact GoMap.mem_vals
  have hcls : ∀ k p, s.pm.pluginMap.get? k = some p → ∃ f ∈ files, fileKey f = k ∧ ∃ q d, hadFor old f = some q ∧ fs.readFile f = some d ∧
      ((q.reloadable = false ∧ p = keptCopy .notReloadable q) ∨ (q.reloadable = true ∧ GoRuntime.sha1 d = q.sha ∧ p = keptCopy .unchanged q)) := by
    intro k p hp
    obtain ⟨f, hf, hk⟩ := h.only k p hp
    obtain ⟨d, hd, hc⟩ := h.fate f hf
    rw [← hk] at hp
    cases hc with
    | notReloadable q had rel kept out =>
      rw [kept] at hp; cases hp
      exact ⟨f, hf, hk, q, d, had, hd, .inl ⟨rel, rfl⟩⟩
    | unchanged q had rel sha kept out =>
      rw [kept] at hp; cases hp
      exact ⟨f, hf, hk, q, d, had, hd, .inr ⟨rel, sha, rfl⟩⟩
    | toLoad info isInfo data had kept out => rw [kept] at hp; cases hp
  have hall : (((s.pm.pluginMap.rangeKV it .stats).map Prod.snd).all (fun p => p.note == .notReloadable || p.note == .unchanged)) = true := by
    rw [List.all_eq_true]
    intro p hp
    obtain ⟨k, hk⟩ := (hmem p).mp hp
    obtain ⟨f, _, _, q, d, _, _, ⟨_, rfl⟩ | ⟨_, _, rfl⟩⟩ := hcls k p hk <;> rfl
  have hnames : (infoNames it m).Perm (m.vals.map (·.name)) := by
    unfold infoNames
    refine (sortStrings_perm _).trans ?_
    have := (GoMap.rangeKV_vals_perm it .names m).map (·.name)
    simpa [List.map_map, Function.comp_def] using this
  refine ⟨hall, ⟨?_, ?_, ?_, ?_, ?_⟩⟩
  · intro n
    constructor
    · intro hn
      obtain ⟨p, hp, rfl⟩ := List.mem_map.mp hn
      obtain ⟨hp, hnote⟩ := List.mem_filter.mp hp
      obtain ⟨k, hk⟩ := (hmem p).mp hp
      obtain ⟨f, hf, _, q, d, hq, _, ⟨hr, rfl⟩ | ⟨_, _, rfl⟩⟩ := hcls k p hk
      · exact ⟨f, hf, q, hq, hr, rfl⟩
      · exact absurd hnote (by simp [keptCopy])
    · rintro ⟨f, hf, q, hq, hr, rfl⟩
      obtain ⟨d, hd, hc⟩ := h.fate f hf
      cases hc with
      | notReloadable q' had rel kept out =>
        rw [hq] at had; cases had
        exact List.mem_map.mpr ⟨keptCopy .notReloadable q, List.mem_filter.mpr ⟨(hmem _).mpr ⟨_, kept⟩, rfl⟩, rfl⟩
      | unchanged q' had rel sha kept out => rw [hq] at had; cases had; rw [hr] at rel; cases rel
      | toLoad info isInfo data had kept out => rw [(had q hq).1] at hr; cases hr
  · intro n
    constructor
    · intro hn
      obtain ⟨p, hp, rfl⟩ := List.mem_map.mp hn
      obtain ⟨hp, hnote⟩ := List.mem_filter.mp hp
      obtain ⟨k, hk⟩ := (hmem p).mp hp
      obtain ⟨f, hf, _, q, d, hq, hd, ⟨_, rfl⟩ | ⟨hr, hsha, rfl⟩⟩ := hcls k p hk
      · exact absurd hnote (by simp [keptCopy])
      · exact ⟨f, hf, q, d, hq, hr, hd, hsha, rfl⟩
    · rintro ⟨f, hf, q, d, hq, hr, hd, hsha, rfl⟩
      obtain ⟨d', hd', hc⟩ := h.fate f hf
      rw [hd] at hd'; cases hd'
      cases hc with
      | notReloadable q' had rel kept out => rw [hq] at had; cases had; rw [hr] at rel; cases rel
      | unchanged q' had rel sha kept out =>
        rw [hq] at had; cases had
        exact List.mem_map.mpr ⟨keptCopy .unchanged q, List.mem_filter.mpr ⟨(hmem _).mpr ⟨_, kept⟩, rfl⟩, rfl⟩
      | toLoad info isInfo data had kept out => exact absurd hsha (had q hq).2
  · intro n
    rw [hnames.mem_iff]
    constructor
    · intro hn
      obtain ⟨info, hi, rfl⟩ := List.mem_map.mp hn
      obtain ⟨k, hk⟩ := GoMap.mem_vals.mp hi
      obtain ⟨f, hf, rfl, hin⟩ := h.onlyInfo k info hk
      obtain ⟨d, hd, hc⟩ := h.fate f hf
      cases hc with
      | notReloadable q' had rel kept out => rw [out] at hk; cases hk
      | unchanged q' had rel sha kept out => rw [out] at hk; cases hk
      | toLoad info' isInfo data had kept out =>
        rw [out] at hk; cases hk
        exact ⟨f, hf, d, hd, had, isInfo.1.symm⟩
    · rintro ⟨f, hf, d, hd, had, rfl⟩
      obtain ⟨d', hd', hc⟩ := h.fate f hf
      rw [hd] at hd'; cases hd'
      cases hc with
      | notReloadable q hq rel kept out => rw [(had q hq).1] at rel; cases rel
      | unchanged q hq rel sha kept out => exact absurd sha (had q hq).2
      | toLoad info' isInfo data had' kept out => exact List.mem_map.mpr ⟨info', GoMap.mem_vals.mpr ⟨_, out⟩, isInfo.1⟩
  · unfold infoNames; exact sortStrings_sorted _
  · -- the partition
    have hkeyed := h.base.keyed
    have hab : (((((s.pm.pluginMap.rangeKV it .stats).map Prod.snd).filter (fun p => p.note == .notReloadable)).map (·.name) ++
        (((s.pm.pluginMap.rangeKV it .stats).map Prod.snd).filter (fun p => p.note == .unchanged)).map (·.name)).map name2key).Perm s.pm.pluginMap.keys := by
      generalize hps : (s.pm.pluginMap.rangeKV it .stats).map Prod.snd = ps at hall
      have hsplit : (ps.filter (fun p => p.note == .notReloadable) ++ ps.filter (fun p => p.note == .unchanged)).Perm ps := by
        have h2 : ps.filter (fun p => p.note == .unchanged) = ps.filter (fun p => !(p.note == .notReloadable)) := by
          refine List.filter_congr (fun p hp => ?_)
          have := List.all_eq_true.mp hall p hp
          cases hn : p.note <;> simp_all <;> rfl
        rw [h2]
        exact List.filter_append_perm _ ps
      rw [← List.map_append, List.map_map]
      refine (hsplit.map _).trans ?_
      have hv : ps.Perm s.pm.pluginMap.vals := hps ▸ GoMap.rangeKV_vals_perm it .stats s.pm.pluginMap
      refine (hv.map _).trans ?_
      unfold GoMap.vals GoMap.keys
      rw [List.map_map]
      refine List.Perm.of_eq (List.map_congr_left (fun e he => ?_))
      exact hkeyed e.1 e.2 (GoMap.get?_eq_some.mpr he)
    have hc : ((infoNames it m).map name2key).Perm m.keys := by
      refine (hnames.map _).trans ?_
      unfold GoMap.vals GoMap.keys
      rw [List.map_map, List.map_map]
      refine List.Perm.of_eq (List.map_congr_left (fun e he => ?_))
      obtain ⟨f, _, hk, hin⟩ := h.onlyInfo e.1 e.2 (GoMap.get?_eq_some.mpr he)
      simp only [Function.comp_apply]
      rw [hin.1]
      exact hk
    rw [List.map_append]
    refine (hab.append hc).trans ?_
    refine (List.perm_ext_iff_of_nodup ?_ h.nodup).mpr ?_
    · refine List.nodup_append.mpr ⟨s.pm.pluginMap.nodup, m.nodup, ?_⟩
      rintro k hk k' hk' rfl
      obtain ⟨p, hp⟩ := GoMap.mem_keys.mp hk
      obtain ⟨info, hi⟩ := GoMap.mem_keys.mp hk'
      obtain ⟨f, hf, rfl⟩ := h.only k p hp
      obtain ⟨d, hd, hc⟩ := h.fate f hf
      cases hc with
      | notReloadable q hq rel kept out => rw [out] at hi; cases hi
      | unchanged q hq rel sha kept out => rw [out] at hi; cases hi
      | toLoad info' isInfo data had' kept out => rw [kept] at hp; cases hp
    · intro k
      rw [List.mem_append, GoMap.mem_keys, GoMap.mem_keys, List.mem_map]
      constructor
      · rintro (⟨p, hp⟩ | ⟨info, hi⟩)
        · obtain ⟨f, hf, hk⟩ := h.only k p hp; exact ⟨f, hf, hk⟩
        · obtain ⟨f, hf, hk, _⟩ := h.onlyInfo k info hi; exact ⟨f, hf, hk⟩
      · rintro ⟨f, hf, rfl⟩
        obtain ⟨d, hd, hc⟩ := h.fate f hf
        cases hc with
        | notReloadable q hq rel kept out => exact .inl ⟨_, kept⟩
        | unchanged q hq rel sha kept out => exact .inl ⟨_, kept⟩
        | toLoad info' isInfo data had' kept out => exact .inr ⟨_, out⟩

end Hotswap
