import Verif.Model.Api

/-!
# Facts about strings: splitting at a separator, `strings.Join`
-/

namespace Hotswap

/-- The text before the first `c` and the text after it are determined. -/
theorem split_unique {c : Char} {a b x y : Str} (ha : c ∉ a) (hb : c ∉ b) (h : a ++ c :: x = b ++ c :: y) : a = b ∧ x = y := by
  induction a generalizing b with
  | nil =>
    cases b with
    | nil => simp at h; exact ⟨rfl, h⟩
    | cons d b => simp at h; exact absurd h.1 (by rintro rfl; simp at hb)
  | cons e a ih =>
    cases b with
    | nil => simp at h; exact absurd h.1 (by rintro rfl; simp at ha)
    | cons d b =>
      simp at h ha hb
      obtain ⟨rfl, h⟩ := h
      obtain ⟨rfl, rfl⟩ := ih ha.2 hb.2 h
      exact ⟨rfl, rfl⟩

/-- The text before the last `c` and the text after it are determined. -/
theorem split_unique_last {c : Char} {a b x y : Str} (hx : c ∉ x) (hy : c ∉ y) (h : a ++ c :: x = b ++ c :: y) : a = b ∧ x = y := by
  have h' := congrArg List.reverse h
  simp at h'
  obtain ⟨h1, h2⟩ := split_unique (by simpa using hx) (by simpa using hy) h'
  exact ⟨List.reverse_inj.mp h2, List.reverse_inj.mp h1⟩

theorem join_cons (sep a : Str) {l : List Str} (h : l ≠ []) : Str.join sep (a :: l) = a ++ sep ++ Str.join sep l := by
  cases l with
  | nil => exact absurd rfl h
  | cons b r => rfl

theorem join_append (sep : Str) {l r : List Str} (hl : l ≠ []) (hr : r ≠ []) :
    Str.join sep (l ++ r) = Str.join sep l ++ sep ++ Str.join sep r := by
  induction l with
  | nil => exact absurd rfl hl
  | cons a l ih =>
    cases l with
    | nil => simp [join_cons sep a hr, Str.join]
    | cons b l =>
      rw [List.cons_append, join_cons sep a (by simp), ih (by simp), join_cons sep a (by simp)]
      simp

/-- A list of comma-free, non-empty items can be read back from `strings.Join(a, ", ")`. -/
theorem join_comma_inj {l r : List Str} (hl : ∀ a ∈ l, ',' ∉ a ∧ a ≠ []) (hr : ∀ a ∈ r, ',' ∉ a ∧ a ≠ [])
    (h : Str.join ", ".toList l = Str.join ", ".toList r) : l = r := by
  have sep : ", ".toList = ',' :: [' '] := rfl
  have hne : ∀ {a : Str} {l : List Str}, (∀ b ∈ a :: l, ',' ∉ b ∧ b ≠ []) → Str.join ", ".toList (a :: l) ≠ [] := by
    intro a l h
    cases l with
    | nil => exact (h a (by simp)).2
    | cons b l => rw [join_cons _ _ (by simp)]; simp [sep]
  induction l generalizing r with
  | nil =>
    cases r with
    | nil => rfl
    | cons b r => exact absurd h.symm (hne hr)
  | cons a l ih =>
    cases r with
    | nil => exact absurd h (hne hl)
    | cons b r =>
      cases l with
      | nil =>
        cases r with
        | nil => simpa [Str.join] using h
        | cons b' r =>
          rw [join_cons _ b (by simp), sep] at h
          have : ',' ∈ a := by
            have h2 : a = Str.join (',' :: [' ']) [a] := rfl
            rw [h2, h]; simp
          exact absurd this (hl a (by simp)).1
      | cons a' l =>
        cases r with
        | nil =>
          rw [join_cons _ a (by simp), sep] at h
          have : ',' ∈ b := by
            have h2 : b = Str.join (',' :: [' ']) [b] := rfl
            rw [h2, ← h]; simp
          exact absurd this (hr b (by simp)).1
        | cons b' r =>
          rw [join_cons _ a (by simp), join_cons _ b (by simp)] at h
          have h' : a ++ ',' :: (' ' :: Str.join ", ".toList (a' :: l)) = b ++ ',' :: (' ' :: Str.join ", ".toList (b' :: r)) := by
            simpa [sep] using h
          obtain ⟨rfl, h2⟩ := split_unique (hl a (by simp)).1 (hr b (by simp)).1 h'
          have h3 := (List.cons.inj h2).2
          rw [ih (r := b' :: r) (fun x hx => hl x (List.mem_cons_of_mem _ hx)) (fun x hx => hr x (List.mem_cons_of_mem _ hx)) h3]

/-! ### hexadecimal numbers -/

/-- The value of a hexadecimal digit. -/
def hexVal (c : Char) : Nat := "0123456789abcdef".toList.idxOf c

theorem hexVal_hexDigit {d : Nat} (h : d < 16) : hexVal (hexDigit d) = d := by
  have : ∀ d : Fin 16, hexVal (hexDigit d) = d := by decide
  exact this ⟨d, h⟩

theorem hexDigits_value (n : Nat) : (hexDigits n).foldl (fun a c => a * 16 + hexVal c) 0 = n := by
  induction n using Nat.strongRecOn with
  | _ n ih =>
    rw [hexDigits]
    split
    · rename_i h; simp [hexVal_hexDigit h]
    · rename_i h
      rw [List.foldl_append, ih (n / 16) (by omega)]
      simp only [List.foldl_cons, List.foldl_nil]
      rw [hexVal_hexDigit (Nat.mod_lt _ (by omega))]
      omega

theorem hexDigits_inj {n m : Nat} (h : hexDigits n = hexDigits m) : n = m := by
  rw [← hexDigits_value n, h, hexDigits_value]

theorem hexDigit_mem {d : Nat} (h : d < 16) : hexDigit d ∈ "0123456789abcdef".toList := by
  have : ∀ d : Fin 16, hexDigit d ∈ "0123456789abcdef".toList := by decide
  exact this ⟨d, h⟩

theorem mem_hexDigits {n : Nat} {c : Char} (h : c ∈ hexDigits n) : c ∈ "0123456789abcdef".toList := by
  induction n using Nat.strongRecOn with
  | _ n ih =>
    rw [hexDigits] at h
    split at h
    · rename_i hn; simp only [List.mem_singleton] at h; subst h; exact hexDigit_mem hn
    · rename_i hn
      rcases List.mem_append.mp h with h | h
      · exact ih (n / 16) (by omega) h
      · simp only [List.mem_singleton] at h; subst h; exact hexDigit_mem (Nat.mod_lt _ (by omega))

theorem sharpHex8_inj {n m : Nat} (h : sharpHex8 n = sharpHex8 m) : n = m := by
  have key : ∀ n, (sharpHex8 n).dropWhile (· == ' ') = '0' :: 'x' :: hexDigits n := by
    intro n
    unfold sharpHex8
    simp only
    generalize 8 - ('0' :: 'x' :: hexDigits n).length = k
    induction k with
    | zero => simp
    | succ k ih => rw [List.replicate_succ]; simpa using ih
  have := key n
  rw [h, key m] at this
  injection this with _ h; injection h with _ h
  exact (hexDigits_inj h).symm

theorem dash_not_mem_sharpHex8 (n : Nat) : '-' ∉ sharpHex8 n := by
  unfold sharpHex8
  simp only [List.mem_append, List.mem_replicate, List.mem_cons, not_or]
  refine ⟨by rintro ⟨_, h⟩; exact absurd h (by decide), by decide, by decide, ?_⟩
  intro h
  exact absurd (mem_hexDigits h) (by decide)

end Hotswap
