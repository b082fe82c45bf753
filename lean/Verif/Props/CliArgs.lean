import Verif.Model.Cli.Args
import Verif.Proofs.StrLemmas

/-!
# Command line (C47) and list rendering (C50)
-/

namespace Hotswap.Cli

/-! ### C47 -/

theorem splitLoop_eq (args pre rest : List Str) (h : args = pre ++ rest) :
    splitLoop args pre.length rest =
      if dashes ∈ rest then (pre ++ rest.takeWhile (· != dashes), (rest.dropWhile (· != dashes)).drop 1) else (args, []) := by
  induction rest generalizing pre with
  | nil => simp [splitLoop]
  | cons a r ih =>
    unfold splitLoop
    split
    · rename_i ha
      subst ha
      rw [if_pos (by simp)]
      subst h
      simp
    · rename_i ha
      have := ih (pre ++ [a]) (by simp [h])
      simp only [List.length_append, List.length_cons, List.length_nil, Nat.zero_add] at this
      rw [this]
      have hm : dashes ∈ a :: r ↔ dashes ∈ r := by
        simp only [List.mem_cons, or_iff_right_iff_imp]
        exact fun h => absurd h.symm ha
      by_cases hr : dashes ∈ r
      · rw [if_pos hr, if_pos (hm.mpr hr), List.takeWhile_cons_of_pos (by simpa using ha), List.dropWhile_cons_of_pos (by simpa using ha)]
        simp
      · rw [if_neg hr, if_neg (fun h => hr (hm.mp h))]

/-- **C47.** The command line is split at the first `--`: what the CLI parses is everything before it, and the build flags are everything after it.
Without `--` the CLI parses everything and there are no build flags. -/
theorem C47_split_at_first (args b f : List Str) :
    splitArgs args = (b, f) ↔ ("--".toList ∉ args ∧ b = args ∧ f = []) ∨ ("--".toList ∉ b ∧ args = b ++ "--".toList :: f) := by
  change splitArgs args = (b, f) ↔ (dashes ∉ args ∧ b = args ∧ f = []) ∨ (dashes ∉ b ∧ args = b ++ dashes :: f)
  have h0 : splitArgs args = if dashes ∈ args then (args.takeWhile (· != dashes), (args.dropWhile (· != dashes)).drop 1) else (args, []) := by
    have := splitLoop_eq args [] args rfl
    simpa [splitArgs] using this
  rw [h0]
  have hcut : ∀ l : List Str, dashes ∈ l → l = l.takeWhile (· != dashes) ++ dashes :: (l.dropWhile (· != dashes)).drop 1 := by
    intro l hl
    induction l with
    | nil => simp at hl
    | cons a r ih =>
      by_cases ha : a = dashes
      · subst ha; simp
      · rw [List.takeWhile_cons_of_pos (by simpa using ha), List.dropWhile_cons_of_pos (by simpa using ha), List.cons_append]
        rw [← ih (by simpa [Ne.symm ha] using hl)]
  have hfree : ∀ l : List Str, dashes ∉ l.takeWhile (· != dashes) := by
    intro l hm
    have h2 : ∀ x ∈ l.takeWhile (· != dashes), (x != dashes) = true := by
      have := List.all_takeWhile (p := (· != dashes)) (l := l)
      exact List.all_eq_true.mp this
    have := h2 _ hm
    simp at this
  split
  · rename_i hm
    constructor
    · intro h
      injection h with h1 h2
      subst h1 h2
      exact .inr ⟨hfree args, hcut args hm⟩
    · rintro (⟨h, _⟩ | ⟨h1, h2⟩)
      · exact absurd hm h
      · subst h2
        have htk : (b ++ dashes :: f).takeWhile (· != dashes) = b ∧ (b ++ dashes :: f).dropWhile (· != dashes) = dashes :: f := by
          clear h0 hm
          induction b with
          | nil => simp
          | cons a b ih =>
            have ha : a ≠ dashes := by rintro rfl; simp at h1
            have := ih (by intro h; exact h1 (List.mem_cons_of_mem _ h))
            rw [List.cons_append, List.takeWhile_cons_of_pos (by simpa using ha), List.dropWhile_cons_of_pos (by simpa using ha), this.1, this.2]
            exact ⟨rfl, rfl⟩
        rw [htk.1, htk.2]; rfl
  · rename_i hm
    constructor
    · intro h; injection h with h1 h2; subst h1 h2; exact .inl ⟨hm, rfl, rfl⟩
    · rintro (⟨_, rfl, rfl⟩ | ⟨_, h⟩)
      · rfl
      · exact absurd (by rw [h]; simp) hm

/-- **C47.** The build flags are passed to `go build` verbatim, after the fixed arguments. -/
theorem C47_passed_verbatim (args b f : List Str) (out : Str) (h : splitArgs args = (b, f)) :
    f <:+ args ∧ goBuildArgs out f = ["build".toList, "-trimpath".toList, "-buildmode=plugin".toList, "-o".toList, out] ++ f := by
  refine ⟨?_, rfl⟩
  rcases (C47_split_at_first args b f).mp h with ⟨_, _, rfl⟩ | ⟨_, rfl⟩
  · exact List.nil_suffix
  · exact ⟨b ++ ["--".toList], by simp⟩

/-- C47: a second `--` belongs to the build flags. -/
example : splitArgs ["hotswap".toList, "build".toList, "--".toList, "-race".toList, "--".toList] =
    (["hotswap".toList, "build".toList], ["-race".toList, "--".toList]) := by decide +kernel

/-! ### C50 -/

/-- **C50.** The three shapes: nothing, one item, or a comma-separated list whose last item follows ` and `. -/
theorem C50_shape (init : List Str) (x z : Str) :
    joinAnd [] = [] ∧ joinAnd [z] = z ∧ joinAnd (x :: init ++ [z]) = Str.join ", ".toList (x :: init) ++ " and ".toList ++ z := by
  refine ⟨rfl, rfl, ?_⟩
  cases init with
  | nil => rfl
  | cons y init =>
    have : joinAnd (x :: y :: init ++ [z]) =
        Str.join ", ".toList ((x :: y :: init ++ [z]).take ((x :: y :: init ++ [z]).length - 1)) ++ " and ".toList ++ (x :: y :: init ++ [z]).getLastD [] := by
      cases init <;> rfl
    rw [this]
    have h1 : (x :: y :: init ++ [z]).take ((x :: y :: init ++ [z]).length - 1) = x :: y :: init := by
      rw [show (x :: y :: init ++ [z]).length - 1 = (x :: y :: init).length by simp]
      exact List.take_left' rfl
    have h2 : (x :: y :: init ++ [z]).getLastD [] = z := by
      rw [List.getLastD_eq_getLast?, List.getLast?_append]; rfl
    rw [h1, h2]

/-- **C50.** Items that are non-empty and contain neither a space nor a comma (such as Go identifiers) can be read back from the text. -/
theorem C50_readable (l r : List Str) (hl : ∀ a ∈ l, a ≠ [] ∧ ' ' ∉ a ∧ ',' ∉ a) (hr : ∀ a ∈ r, a ≠ [] ∧ ' ' ∉ a ∧ ',' ∉ a)
    (h : joinAnd l = joinAnd r) : l = r := by
  have key : ∀ l : List Str, (∀ a ∈ l, a ≠ [] ∧ ' ' ∉ a ∧ ',' ∉ a) →
      (l = [] ∧ joinAnd l = []) ∨ (∃ z, l = [z] ∧ joinAnd l = z) ∨
      (∃ i z, l = i ++ [z] ∧ i ≠ [] ∧ joinAnd l = (Str.join ", ".toList i ++ " and".toList) ++ ' ' :: z) := by
    intro l _
    cases hrev : l.reverse with
    | nil => left; simp at hrev; subst hrev; exact ⟨rfl, rfl⟩
    | cons z t =>
      have hl : l = t.reverse ++ [z] := by rw [← List.reverse_reverse l, hrev]; simp
      cases ht : t.reverse with
      | nil => right; left; rw [ht] at hl; exact ⟨z, hl, by rw [hl]; rfl⟩
      | cons x i =>
        right; right
        rw [ht] at hl
        refine ⟨x :: i, z, hl, by simp, ?_⟩
        rw [hl, (C50_shape i x z).2.2]
        have : " and ".toList = " and".toList ++ [' '] := rfl
        rw [this]; simp
  rcases key l hl with ⟨h1, h2⟩ | ⟨z, h1, h2⟩ | ⟨i, z, h1, hi, h2⟩ <;>
    rcases key r hr with ⟨h1', h2'⟩ | ⟨z', h1', h2'⟩ | ⟨i', z', h1', hi', h2'⟩
  · rw [h1, h1']
  · rw [h2, h2'] at h; exact absurd h.symm (hr z' (by rw [h1']; simp)).1
  · rw [h2, h2'] at h; exact absurd h.symm (by simp)
  · rw [h2, h2'] at h; exact absurd h (hl z (by rw [h1]; simp)).1
  · rw [h1, h1', ← h2, ← h2', h]
  · rw [h2, h2'] at h; exact absurd (by rw [h]; simp) (hl z (by rw [h1]; simp)).2.1
  · rw [h2, h2'] at h; exact absurd h (by simp)
  · rw [h2, h2'] at h; exact absurd (by rw [← h]; simp) (hr z' (by rw [h1']; simp)).2.1
  · rw [h2, h2'] at h
    obtain ⟨h3, rfl⟩ := split_unique_last (hl z (by rw [h1]; simp)).2.1 (hr z' (by rw [h1']; simp)).2.1 h
    have h4 : i = i' := by
      refine join_comma_inj ?_ ?_ (List.append_cancel_right h3)
      · intro a ha; have := hl a (by rw [h1]; simp [ha]); exact ⟨this.2.2, this.1⟩
      · intro a ha; have := hr a (by rw [h1']; simp [ha]); exact ⟨this.2.2, this.1⟩
    rw [h1, h1', h4]

/-- **C50**, why spaces must be excluded and not only ` and `: two different lists of such items with the same text. -/
theorem C50_ambiguous_with_spaces : joinAnd ["x and".toList, "y".toList] = joinAnd ["x".toList, "and y".toList] := by decide +kernel

/-- C50: the nine function names satisfy the hypothesis. -/
example : ∀ a ∈ ["OnLoad".toList, "HotswapLiveFuncs".toList], a ≠ [] ∧ ' ' ∉ a ∧ ',' ∉ a := by decide +kernel

end Hotswap.Cli
