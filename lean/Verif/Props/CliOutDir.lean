import Verif.Model.Cli.OutDir

/-!
# Output directories of static builds (C48)
-/

namespace Hotswap.Cli

theorem stripCommon_below (x r : List Str) : stripCommon x (x ++ r) = ([], r) := by
  induction x with
  | nil => cases r <;> rfl
  | cons a x ih => simp only [List.cons_append, stripCommon, if_true]; exact ih

theorem stripCommon_spec (x y : List Str) : ∃ c, x = c ++ (stripCommon x y).1 ∧ y = c ++ (stripCommon x y).2 := by
  induction x generalizing y with
  | nil => exact ⟨[], by simp [stripCommon], by simp [stripCommon]⟩
  | cons a x ih =>
    cases y with
    | nil => exact ⟨[], by simp [stripCommon], by simp [stripCommon]⟩
    | cons b y =>
      rw [stripCommon]
      split
      · rename_i h
        subst h
        obtain ⟨c, h1, h2⟩ := ih y
        exact ⟨a :: c, by rw [List.cons_append, ← h1], by rw [List.cons_append, ← h2]⟩
      · exact ⟨[], rfl, rfl⟩

theorem join_head (a : Str) (r : List Str) : ∃ t, Str.join ['/'] (a :: r) = a ++ t ∧ (t = [] ∨ ∃ u, t = '/' :: u) := by
  cases r with
  | nil => exact ⟨[], by simp [Str.join], .inl rfl⟩
  | cons b r => exact ⟨'/' :: Str.join ['/'] (b :: r), by simp [Str.join], .inr ⟨_, rfl⟩⟩

/-- **C48.** Exactly which output directories a static build refuses: the plugin directory itself, and the directories inside it whose path from there does not begin with two dots. Names of directories are not empty. -/
theorem C48_refused_iff (pluginDir outputDir : List Str) (hne : ∀ c ∈ outputDir, c ≠ []) :
    refusesOutputDir pluginDir outputDir = true ↔
      outputDir = pluginDir ∨ ∃ c r, outputDir = pluginDir ++ c :: r ∧ ¬ ['.', '.'] <+: c := by
  unfold refusesOutputDir
  by_cases heq : outputDir = pluginDir
  · simp [heq]
  · rw [if_neg heq, Bool.not_eq_true', ← Bool.not_eq_true]
    unfold Str.hasPrefix
    rw [List.isPrefixOf_iff_prefix]
    by_cases hin : ∃ r, outputDir = pluginDir ++ r
    · obtain ⟨r, rfl⟩ := hin
      cases r with
      | nil => simp at heq
      | cons c r =>
        have hrel : filepathRel pluginDir (pluginDir ++ c :: r) = Str.join ['/'] (c :: r) := by
          unfold filepathRel; rw [stripCommon_below]; rfl
        rw [hrel]
        obtain ⟨t, ht, ht'⟩ := join_head c r
        have hc := hne c (by simp)
        have key : ['.', '.'] <+: c ++ t ↔ ['.', '.'] <+: c := by
          constructor
          · intro h
            cases c with
            | nil => exact absurd rfl hc
            | cons x c =>
              cases c with
              | nil =>
                exfalso
                rw [List.cons_append, List.cons_prefix_cons] at h
                rcases ht' with rfl | ⟨u, rfl⟩
                · simp at h
                · rw [List.nil_append, List.cons_prefix_cons] at h; exact absurd h.2.1 (by decide)
              | cons y c =>
                rw [List.cons_append, List.cons_append, List.cons_prefix_cons, List.cons_prefix_cons] at h
                rw [← h.1, ← h.2.1]; exact ⟨c, rfl⟩
          · intro h; exact h.trans ⟨t, rfl⟩
        rw [ht, key]
        constructor
        · intro h; exact .inr ⟨c, r, rfl, h⟩
        · rintro (h | ⟨c', r', h, hnd⟩)
          · exact absurd h heq
          · have := List.append_cancel_left h
            injection this with e1 _
            rw [e1]; exact hnd
    · constructor
      · intro h
        exfalso
        apply h
        unfold filepathRel
        obtain ⟨cm, h1, h2⟩ := stripCommon_spec pluginDir outputDir
        generalize stripCommon pluginDir outputDir = z at h1 h2 ⊢
        obtain ⟨up, down⟩ := z
        cases up with
        | nil => exact absurd ⟨down, by rw [h2, h1]; simp⟩ hin
        | cons a up =>
          simp only [List.map_cons, List.cons_append]
          obtain ⟨t, ht, _⟩ := join_head ['.', '.'] (up.map (fun _ => ['.', '.']) ++ down)
          rw [ht]; exact ⟨t, rfl⟩
      · rintro (h | ⟨c, r, h, _⟩)
        · exact absurd h heq
        · exact absurd ⟨c :: r, h⟩ hin

/-- **C48.** An output directory that is not inside the plugin directory is never refused. -/
theorem C48_outside_accepted (pluginDir outputDir : List Str) (hne : ∀ c ∈ outputDir, c ≠ [])
    (hout : ¬ pluginDir <+: outputDir) : refusesOutputDir pluginDir outputDir = false := by
  cases h : refusesOutputDir pluginDir outputDir with
  | false => rfl
  | true =>
    rcases (C48_refused_iff _ _ hne).mp h with h | ⟨c, r, h, _⟩
    · exact absurd ⟨[], by rw [h]; simp⟩ hout
    · exact absurd ⟨c :: r, h.symm⟩ hout

/-- **C48, partial.** An output directory inside the plugin directory is refused if the first component below the plugin directory does not begin with two dots. -/
theorem C48_inside_refused_partial (pluginDir r : List Str) (c : Str) (hne : ∀ x ∈ pluginDir ++ c :: r, x ≠ [])
    (hd : ¬ ['.', '.'] <+: c) : refusesOutputDir pluginDir (pluginDir ++ c :: r) = true :=
  (C48_refused_iff _ _ hne).mpr (.inr ⟨c, r, rfl, hd⟩)

/-- **C48, violated.** For every plugin directory there is a subdirectory that is accepted as output directory: any one whose name begins with two dots. -/
theorem C48_violated (pluginDir : List Str) (hne : ∀ c ∈ pluginDir, c ≠ []) :
    refusesOutputDir pluginDir (pluginDir ++ ["..out".toList]) = false := by
  cases h : refusesOutputDir pluginDir (pluginDir ++ ["..out".toList]) with
  | false => rfl
  | true =>
    rcases (C48_refused_iff _ _ (by
      intro c hc
      rcases List.mem_append.mp hc with hc | hc
      · exact hne c hc
      · rw [List.mem_singleton.mp hc]; decide)).mp h with h | ⟨c, r, h, hnd⟩
    · simp at h
    · have := List.append_cancel_left h
      injection this with e1 _
      rw [← e1] at hnd
      exact absurd ⟨"out".toList, rfl⟩ hnd

/-! ### Examples -/

example : refusesOutputDir ["p".toList, "foo".toList] ["p".toList, "foo".toList, "sub".toList] = true := by decide +kernel
example : refusesOutputDir ["p".toList, "foo".toList] ["p".toList] = false := by decide +kernel
example : refusesOutputDir ["p".toList, "foo".toList] ["p".toList, "foobar".toList] = false := by decide +kernel

end Hotswap.Cli
