import Verif.Proofs.Stage1

/-! The first stage of `loadPlugins` as a whole, and the body of `loadPlugins`. -/

namespace Hotswap

variable [GoRuntime]

open M

/-- The plugin the old manager has under a key. -/
def oldGet (old : Option Manager) (k : Str) : Option Plugin := old.bind (fun om => om.pluginMap.get? k)

theorem keep_wp {old : Option Manager} {n0 : Nat} {pm0 : Manager} {s0 : LoadSt} {F : Fail → LoadSt → Prop}
    (hgood : ∀ om, old = some om → SoundManager n0 om) (note : Note)
    {ks : List Str} (hnd : ks.Nodup) (hold : ∀ k ∈ ks, oldGet old k ≠ none)
    (hnew : ∀ k ∈ ks, s0.pm.pluginMap.get? k = none) (h : Base old n0 pm0 s0)
    (hno : ∀ a ∈ s0.acts, ∃ i, a = .inc i) :
    wp (keepPlugins old note ks)
      (fun _ s => Base old n0 pm0 s ∧ s.next = s0.next ∧ (∀ a ∈ s.acts, ∃ i, a = .inc i) ∧
        (∀ k, s.pm.pluginMap.get? k = if k ∈ ks then (oldGet old k).map (keptCopy note) else s0.pm.pluginMap.get? k) ∧
        s.pm.pluginMap.size = s0.pm.pluginMap.size + ks.length)
      F s0 := by
  cases old with
  | none =>
    have : ks = [] := by
      cases ks with
      | nil => rfl
      | cons k r => exact absurd rfl (hold k (by simp))
    subst this
    simp only [keepPlugins, forEach, wp_mpure]
    refine ⟨h, ?_, hno, ?_, ?_⟩ <;> simp
  | some om =>
    refine keepPlugins_wp (hgood om rfl) note hnd ?_ hnew h hno
    intro k hk
    have := hold k hk
    rw [GoMap.mem_keys]
    exact Option.ne_none_iff_exists'.mp this

omit [GoRuntime] in
theorem GoMap.size_filter_not {α : Type} (m : GoMap α) (p : Str → α → Bool) :
    (m.filter p).size + (m.filter (fun k v => !p k v)).size = m.size := by
  unfold GoMap.size GoMap.filter
  simp only
  induction m.entries with
  | nil => rfl
  | cons e r ih =>
    simp only [List.filter_cons, List.length_cons]
    cases p e.1 e.2 <;> simp <;> omega

/-- State after the first stage. -/
structure Stage1Done (old : Option Manager) (n0 : Nat) (pm0 : Manager) (fs : FS) (files : List Str) (s : LoadSt) : Prop where
  base : Base old n0 pm0 s
  nodup : (files.map fileKey).Nodup
  fate : ∀ f ∈ files, ∃ data p, fs.readFile f = some data ∧ s.pm.pluginMap.get? (fileKey f) = some p ∧ FileFate fs old f data p
  only : ∀ k p, s.pm.pluginMap.get? k = some p → ∃ f ∈ files, fileKey f = k
  /-- what has been done: references to kept plugins were taken; then each new plugin, in the order of names, was opened, asked and registered -/
  log : ∃ (kept : List Act) (names : List Str), s.acts = kept ++ names.flatMap (newActs s.pm.pluginMap) ∧ (∀ a ∈ kept, ∃ i, a = Act.inc i) ∧ names.Pairwise (· ≤ ·) ∧ names.Nodup ∧
    ∀ k, k ∈ names ↔ ∃ p, s.pm.pluginMap.get? k = some p ∧ p.unchanged = false

theorem Stage1Done.asked {old : Option Manager} {n0 : Nat} {pm0 : Manager} {fs : FS} {files : List Str} {s : LoadSt} (h : Stage1Done old n0 pm0 fs files s) : Asked s := by
  obtain ⟨kept, names, hacts, hkept, _, _, hnames⟩ := h.log
  constructor
  · intro a ha i g hg
    rw [hacts] at ha
    rcases List.mem_append.mp ha with ha | ha
    · obtain ⟨j, rfl⟩ := hkept a ha; cases hg
    · obtain ⟨k, hk, ha⟩ := List.mem_flatMap.mp ha
      obtain ⟨p, hp, hu⟩ := (hnames k).mp hk
      refine ⟨k, p, hp, hu, ?_⟩
      simp only [newActs, hp, List.mem_cons, List.not_mem_nil, or_false] at ha
      rcases ha with rfl | rfl | rfl | rfl <;> cases hg <;> rfl
  · intro k p hp hu
    have hk := (hnames k).mpr ⟨p, hp, hu⟩
    rw [hacts]
    refine ⟨List.mem_append_right _ (List.mem_flatMap.mpr ⟨k, hk, by simp [newActs, hp]⟩), List.mem_append_right _ (List.mem_flatMap.mpr ⟨k, hk, by simp [newActs, hp]⟩)⟩

/-- Failures of the first stage. -/
def Stage1Fail (old : Option Manager) (fs : FS) (files : List Str) (s : LoadSt) : Fail → Prop
  | .inl (.duplicateName k) => s.acts = [] ∧ 1 < (files.map fileKey).count k
  | .inl (.readFile f) => (files.map fileKey).Nodup ∧ s.acts = [] ∧ f ∈ files ∧ fs.readFile f = none
  | .inl (.loading n e) => (files.map fileKey).Nodup ∧ ∃ f ∈ files, n = pluginName f ∧ NotKept fs old f ∧ FileFault fs f e ∧
      ∀ l, e = .missing l → s.acts.getLast? = some (.openPlugin f)
  | .inl (.panicked c p) => (files.map fileKey).Nodup ∧
      ((c = none ∧ p = .nilDeref ∧ ∃ f ∈ files, NotKept fs old f ∧ name2key (pluginName f) ≠ pluginName f) ∨
        (p = .user ∧ ∃ f ∈ files, NotKept fs old f ∧ c = some (pluginName f) ∧ fs.openPlugin f = .panics ∧ s.pm.findPlugin (pluginName f) = none ∧ s.acts.getLast? = some (.openPlugin f)))
  | _ => False

/-- The first stage: pluginManager.go:102-142. -/
def stage1 (it : Iter) (fs : FS) (files : List Str) (old : Option Manager) : M Unit := do
  let s ← M.get
  if s.pm.pluginMap.size ≠ 0 then M.throw .twice
  match findDuplicate it files with
  | some k => M.throw (.duplicateName k)
  | none =>
    match buildFileInfoMap fs files .empty with
    | .error e => M.throw e
    | .ok infoMap =>
      let notReloadable := infoMap.filter (fun k _ => isNotReloadable old k)
      let infoMap := infoMap.filter (fun k _ => !isNotReloadable old k)
      keepPlugins old .notReloadable (notReloadable.range it .notReloadable)
      let unchanged := infoMap.filter (fun k info => isUnchanged old k info)
      let infoMap := infoMap.filter (fun k info => !isUnchanged old k info)
      keepPlugins old .unchanged (unchanged.range it .unchanged)
      let s ← M.get
      if infoMap.size + s.pm.pluginMap.size ≠ files.length then M.throw .lenMismatch
      outputStats1
      loadNew it fs infoMap

theorem wp_body {it : Iter} {fs : FS} {files : List Str} {old : Option Manager} {data : Nat}
    {R : Unit → LoadSt → Prop} {F : Fail → LoadSt → Prop} {s : LoadSt}
    (h : wp (stage1 it fs files old) (fun _ s' => wp (finishLoad it data) R F s') F s) :
    wp (loadPluginsBody it fs files old data) R F s := by
  unfold loadPluginsBody
  unfold stage1 at h
  simp only [wp_bind, wp_get] at h ⊢
  by_cases hz : s.pm.pluginMap.size = 0
  · rw [if_neg (by omega)] at h ⊢
    cases hd : findDuplicate it files with
    | some k => simp only [hd, wp_throw] at h ⊢; exact h
    | none =>
      simp only [hd] at h ⊢
      cases hb : buildFileInfoMap fs files .empty with
      | error e => simp only [hb, wp_throw] at h ⊢; exact h
      | ok m =>
        simp only [hb, wp_bind, wp_get] at h ⊢
        refine wp_mono h ?_ (fun _ _ h => h)
        intro _ s1 h
        refine wp_mono h ?_ (fun _ _ h => h)
        intro _ s2 h
        split
        · rename_i hne
          rw [if_pos hne] at h
          simp only [wp_bind, wp_throw] at h ⊢; exact h
        · rename_i hne
          rw [if_neg hne] at h
          simp only [wp_bind] at h ⊢
          exact h
  · rw [if_pos (by omega)] at h ⊢
    simp only [wp_bind, wp_throw] at h ⊢
    exact h

theorem stage1_wp {old : Option Manager} {n0 : Nat} {s0 : LoadSt} (it : Iter) (fs : FS) (files : List Str)
    (hgood : ∀ om, old = some om → SoundManager n0 om)
    (hn : n0 < s0.next) (hpm : s0.pm.pluginMap = .empty) (hacts : s0.acts = []) :
    wp (stage1 it fs files old) (fun _ s => Stage1Done old n0 s0.pm fs files s)
      (fun f s => Base old n0 s0.pm s ∧ Stage1Fail old fs files s f) s0 := by
  have hb0 : Base old n0 s0.pm s0 := by
    refine ⟨?_, ?_, ?_, hn, ?_, rfl, ?_, ?_, ?_, ?_, ?_⟩ <;> simp [hpm, hacts, Keyed, Manager.insts, GoMap.vals, GoMap.empty, acquired, HooksIncr, GoMap.get?]
  unfold stage1
  simp only [wp_bind, wp_get]
  have hsz : s0.pm.pluginMap.size = 0 := by rw [hpm]; rfl
  rw [if_neg (by omega)]
  cases hd : findDuplicate it files with
  | some k => simp only [wp_throw]; exact ⟨hb0, hacts, findDuplicate_some hd⟩
  | none =>
    have hnd := findDuplicate_none hd
    simp only
    cases hbi : buildFileInfoMap fs files .empty with
    | error e =>
      simp only [wp_throw]
      obtain ⟨f, hf, rfl, hr⟩ := buildFileInfoMap_err hbi
      exact ⟨hb0, hnd, hacts, hf, hr⟩
    | ok m =>
      simp only [wp_bind]
      obtain ⟨hm1, hm2, hm3⟩ := buildFileInfoMap_ok hnd (fun _ _ => rfl) hbi
      have hmsz : m.size = files.length := by rw [hm3]; simp [GoMap.empty, GoMap.size]
      -- what an entry of the info map says
      have hinfo : ∀ k info, m.get? k = some info → ∃ f ∈ files, fileKey f = k ∧ InfoOf fs f info := by
        intro k info hk
        by_cases hkf : k ∈ files.map fileKey
        · obtain ⟨f, hf, rfl⟩ := List.mem_map.mp hkf
          obtain ⟨info', h1, h2⟩ := hm2 f hf
          rw [hk] at h1; cases h1
          exact ⟨f, hf, rfl, h2⟩
        · rw [hm1 k hkf] at hk; cases hk
      -- kept: not reloadable
      have hs0none : ∀ k, s0.pm.pluginMap.get? k = none := by intro k; rw [hpm]; rfl
      refine wp_mono (keep_wp hgood .notReloadable (GoMap.range_nodup ..) ?_ (fun k _ => hs0none k) hb0 (by simp [hacts])) ?_ (fun _ _ h => h)
      · intro k hk
        rw [GoMap.mem_range, GoMap.mem_keys] at hk
        obtain ⟨v, hv⟩ := hk
        rw [GoMap.get?_filter] at hv
        intro hnone
        have : isNotReloadable old k = false := by
          unfold isNotReloadable
          cases old with
          | none => rfl
          | some om =>
            have : om.pluginMap.get? k = none := hnone
            simp [this]
        cases hmk : m.get? k with
        | none => rw [hmk] at hv; cases hv
        | some v => rw [hmk] at hv; simp [this] at hv
      rintro _ s1 ⟨hb1, hn1, hi1, hg1, hz1⟩
      have hmem1 : ∀ k, k ∈ (m.filter (fun k _ => isNotReloadable old k)).range it .notReloadable ↔
          k ∈ m.keys ∧ isNotReloadable old k = true := by
        intro k
        rw [GoMap.mem_range, GoMap.mem_keys, GoMap.mem_keys]
        rw [GoMap.get?_filter]
        cases hmk : m.get? k with
        | none => simp
        | some v => simp
      -- kept: unchanged
      have hmem2 : ∀ k, k ∈ ((m.filter (fun k _ => !isNotReloadable old k)).filter (fun k info => isUnchanged old k info)).range it .unchanged ↔
          ∃ info, m.get? k = some info ∧ isNotReloadable old k = false ∧ isUnchanged old k info = true := by
        intro k
        rw [GoMap.mem_range, GoMap.mem_keys]
        simp only [GoMap.get?_filter]
        cases hmk : m.get? k with
        | none => simp
        | some v =>
          cases h1 : isNotReloadable old k <;> simp
      refine wp_mono (keep_wp hgood .unchanged (GoMap.range_nodup ..) ?_ ?_ hb1 hi1) ?_ (fun _ _ h => h)
      · intro k hk hnone
        obtain ⟨info, _, _, hu⟩ := (hmem2 k).mp hk
        unfold isUnchanged at hu
        cases old with
        | none => simp at hu
        | some om =>
          have : om.pluginMap.get? k = none := hnone
          simp [this] at hu
      · intro k hk
        obtain ⟨info, _, hnr, hu⟩ := (hmem2 k).mp hk
        rw [hg1, if_neg, hs0none]
        rw [hmem1, hnr]; simp
      rintro _ s2 ⟨hb2, hn2, hi2, hg2, hz2⟩
      simp only [wp_get]
      -- sizes
      have hsizes : ((m.filter (fun k _ => !isNotReloadable old k)).filter (fun k info => !isUnchanged old k info)).size + s2.pm.pluginMap.size = files.length := by
        rw [hz2, hz1, hsz]
        have e1 := GoMap.size_filter_not m (fun k _ => isNotReloadable old k)
        have e2 := GoMap.size_filter_not (m.filter (fun k _ => !isNotReloadable old k)) (fun k info => isUnchanged old k info)
        have l1 : ((m.filter (fun k _ => isNotReloadable old k)).range it .notReloadable).length = (m.filter (fun k _ => isNotReloadable old k)).size := by
          rw [(GoMap.range_perm ..).length_eq, GoMap.size_eq_keys]
        have l2 : (((m.filter (fun k _ => !isNotReloadable old k)).filter (fun k info => isUnchanged old k info)).range it .unchanged).length
            = ((m.filter (fun k _ => !isNotReloadable old k)).filter (fun k info => isUnchanged old k info)).size := by
          rw [(GoMap.range_perm ..).length_eq, GoMap.size_eq_keys]
        rw [l1, l2]
        omega
      rw [if_neg (by omega)]
      simp only [wp_bind]
      -- the plugins so far
      have hs2 : ∀ k, s2.pm.pluginMap.get? k =
          if k ∈ ((m.filter (fun k _ => !isNotReloadable old k)).filter (fun k info => isUnchanged old k info)).range it .unchanged then (oldGet old k).map (keptCopy .unchanged)
          else if k ∈ (m.filter (fun k _ => isNotReloadable old k)).range it .notReloadable then (oldGet old k).map (keptCopy .notReloadable)
          else none := by
        intro k; rw [hg2, hg1, hs0none]
      have hstats : wp outputStats1 (fun _ s => s = s2) (fun f s => Base old n0 s0.pm s ∧ Stage1Fail old fs files s f) s2 := by
        unfold outputStats1
        simp only [wp_bind, wp_get]
        rw [if_pos]
        · simp
        rw [List.all_eq_true]
        intro p hp
        obtain ⟨k, hk⟩ := GoMap.mem_vals.mp hp
        rw [hs2] at hk
        split at hk
        · obtain ⟨q, _, rfl⟩ := Option.map_eq_some_iff.mp hk
          rfl
        · split at hk
          · obtain ⟨q, _, rfl⟩ := Option.map_eq_some_iff.mp hk
            rfl
          · cases hk
      refine wp_mono hstats ?_ (fun _ _ h => h)
      rintro _ s3 rfl
      have hmem3 : ∀ k info, ((m.filter (fun k _ => !isNotReloadable old k)).filter (fun k info => !isUnchanged old k info)).get? k = some info ↔
          m.get? k = some info ∧ isNotReloadable old k = false ∧ isUnchanged old k info = false := by
        intro k info
        simp only [GoMap.get?_filter]
        cases hmk : m.get? k with
        | none => simp
        | some v =>
          cases h1 : isNotReloadable old k
          · cases h2 : isUnchanged old k v
            · simp +contextual [← h2]
            · simp +contextual [← h2]
          · simp
      have hnew := loadNew_wp (fs := fs) (infoMap := (m.filter (fun k _ => !isNotReloadable old k)).filter (fun k info => !isUnchanged old k info)) it hgood
        (by
          intro k info hk
          obtain ⟨hmk, _, _⟩ := (hmem3 k info).mp hk
          obtain ⟨f, _, rfl, h1, h2, h3, h4⟩ := hinfo k info hmk
          refine ⟨⟨?_, rfl, ?_, h4⟩, ?_⟩
          · rw [h1, h2]
          · rw [h2]; exact h3
          · rw [h1]; rfl)
        (by
          intro k hk
          obtain ⟨info, hk⟩ := GoMap.mem_keys.mp hk
          obtain ⟨hmk, hnr, hnu⟩ := (hmem3 k info).mp hk
          rw [hs2, if_neg, if_neg]
          · rw [hmem1, hnr]; simp
          · rw [hmem2]
            rintro ⟨info', h1, _, h2⟩
            rw [hmk] at h1; cases h1
            rw [hnu] at h2; cases h2)
        hb2
      refine wp_mono hnew ?_ ?_
      · rintro _ s4 ⟨hinv, names, hsort, hnodup, hkeys, hlog⟩
        refine ⟨hinv.base, hnd, ?_, ?_, ?_⟩
        · intro f hf
          obtain ⟨info, hmk, h1, h2, h3, h4⟩ := hm2 f hf
          refine ⟨info.data, ?_⟩
          cases hnr : isNotReloadable old (fileKey f) with
          | true =>
            -- kept because not reloadable
            unfold isNotReloadable at hnr
            cases hold : old with
            | none => rw [hold] at hnr; simp at hnr
            | some om =>
              rw [hold] at hnr
              simp only at hnr
              cases hop : om.pluginMap.get? (fileKey f) with
              | none => rw [hop] at hnr; simp at hnr
              | some oldP =>
                rw [hop] at hnr
                simp only [Bool.not_eq_true'] at hnr
                have hnr' : isNotReloadable old (fileKey f) = true := by simp [isNotReloadable, hold, hop, hnr]
                refine ⟨keptCopy .notReloadable oldP, h3, ?_, .notReloadable om oldP rfl hop hnr rfl⟩
                rw [hinv.others, hs2, if_neg, if_pos]
                · simp [oldGet, hold, hop]
                · rw [hmem1]; exact ⟨GoMap.mem_keys.mpr ⟨_, hmk⟩, hnr'⟩
                · rw [hmem2]; rintro ⟨_, _, h, _⟩; rw [hnr'] at h; cases h
                · rw [GoMap.mem_keys]
                  rintro ⟨info', h⟩
                  obtain ⟨_, h, _⟩ := (hmem3 _ _).mp h
                  rw [hnr'] at h; cases h
          | false =>
            cases hun : isUnchanged old (fileKey f) info with
            | true =>
              have hun0 := hun
              unfold isUnchanged at hun
              cases hold : old with
              | none => rw [hold] at hun; simp at hun
              | some om =>
                rw [hold] at hun
                simp only at hun
                cases hop : om.pluginMap.get? (fileKey f) with
                | none => rw [hop] at hun; simp at hun
                | some oldP =>
                  rw [hop] at hun
                  simp only [beq_iff_eq] at hun
                  have hrel : oldP.reloadable = true := by
                    simpa [isNotReloadable, hold, hop] using hnr
                  refine ⟨keptCopy .unchanged oldP, h3, ?_, .unchanged om oldP rfl hop hrel (h4 ▸ hun) rfl⟩
                  rw [hinv.others, hs2, if_pos]
                  · simp [oldGet, hold, hop]
                  · rw [hmem2]; exact ⟨info, hmk, hnr, hun0⟩
                  · rw [GoMap.mem_keys]
                    rintro ⟨info', h⟩
                    obtain ⟨he, _, h⟩ := (hmem3 _ _).mp h
                    rw [hmk] at he; cases he
                    rw [hun0] at h; cases h
            | false =>
              obtain ⟨info', p, hi', hp, hbf⟩ := hinv.new (fileKey f) (GoMap.mem_keys.mpr ⟨info, (hmem3 _ _).mpr ⟨hmk, hnr, hun⟩⟩)
              obtain ⟨he, _, _⟩ := (hmem3 _ _).mp hi'
              rw [hmk] at he; cases he
              rw [h2] at hbf
              refine ⟨p, h3, hp, .renewed ?_ hbf⟩
              intro om oldP hold hop
              refine ⟨by simpa [isNotReloadable, hold, hop] using hnr, ?_⟩
              rw [← h4]
              simpa [isUnchanged, hold, hop] using hun
        · intro k p hp
          have hmk : ∃ info, m.get? k = some info := by
            by_cases hk : k ∈ ((m.filter (fun k _ => !isNotReloadable old k)).filter (fun k info => !isUnchanged old k info)).keys
            · obtain ⟨info, hk⟩ := GoMap.mem_keys.mp hk
              exact ⟨info, ((hmem3 _ _).mp hk).1⟩
            · rw [hinv.others k hk, hs2] at hp
              split at hp
              · rename_i h; obtain ⟨info, h, _⟩ := (hmem2 k).mp h; exact ⟨info, h⟩
              · split at hp
                · rename_i h; exact GoMap.mem_keys.mp ((hmem1 k).mp h).1
                · cases hp
          obtain ⟨info, hmk⟩ := hmk
          obtain ⟨f, hf, hk, _⟩ := hinfo k info hmk
          exact ⟨f, hf, hk⟩
        · refine ⟨s3.acts, names, hlog, hi2, hsort, hnodup, fun k => (hkeys k).trans ⟨?_, ?_⟩⟩
          · intro hk
            obtain ⟨info, p, _, hp, hbf⟩ := hinv.new k hk
            exact ⟨p, hp, hbf.changed⟩
          · rintro ⟨p, hp, hu⟩
            by_contra hk
            rw [hinv.others k hk, hs2] at hp
            split at hp
            · obtain ⟨q, _, rfl⟩ := Option.map_eq_some_iff.mp hp; simp [keptCopy] at hu
            · split at hp
              · obtain ⟨q, _, rfl⟩ := Option.map_eq_some_iff.mp hp; simp [keptCopy] at hu
              · cases hp
      · rintro f s4 ⟨hb4, hf4⟩
        refine ⟨hb4, ?_⟩
        have hnk : ∀ k info g, fileKey g = k → fs.readFile g = some info.data → info.sha = GoRuntime.sha1 info.data →
            isNotReloadable old k = false → isUnchanged old k info = false → NotKept fs old g := by
          rintro k info g rfl h3 h4 hnr hnu om oldP data hold hop hread
          rw [h3] at hread; cases hread
          refine ⟨by simpa [isNotReloadable, hold, hop] using hnr, ?_⟩
          rw [← h4]
          simpa [isUnchanged, hold, hop] using hnu
        unfold NewFailOK at hf4
        unfold Stage1Fail
        split at hf4
        · obtain ⟨k, info, hk, rfl, hl, hmiss⟩ := hf4
          obtain ⟨hmk, hnr, hnu⟩ := (hmem3 k info).mp hk
          obtain ⟨g, hg, hgk, h1, h2, h3, h4⟩ := hinfo k info hmk
          rw [h2] at hl hmiss
          exact ⟨hnd, g, hg, h1, hnk k info g hgk h3 h4 hnr hnu, hl, hmiss⟩
        · refine ⟨hnd, ?_⟩
          rcases hf4 with ⟨rfl, rfl, k, info, hk, hlow⟩ | ⟨rfl, k, info, hk, rfl, hop, hno, hlast⟩
          · obtain ⟨hmk, hnr, hnu⟩ := (hmem3 k info).mp hk
            obtain ⟨g, hg, hgk, h1, h2, h3, h4⟩ := hinfo k info hmk
            exact .inl ⟨rfl, rfl, g, hg, hnk k info g hgk h3 h4 hnr hnu, by rw [← h1]; exact hlow⟩
          · obtain ⟨hmk, hnr, hnu⟩ := (hmem3 k info).mp hk
            obtain ⟨g, hg, hgk, h1, h2, h3, h4⟩ := hinfo k info hmk
            exact .inr ⟨rfl, g, hg, hnk k info g hgk h3 h4 hnr hnu, by rw [h1], by rw [← h2]; exact hop, by unfold Manager.findPlugin; rw [show name2key (pluginName g) = k from hgk]; exact hno, by rw [← h2]; exact hlast⟩
        · exact hf4.elim

end Hotswap
