import Verif.Model.Cli.Rewrite

/-!
# How sources are rewritten when they are copied (C51)
-/

namespace Hotswap.Cli

/-! ### Specification -/

/-- `Rewritten occ p t s s'`: `s'` is `s` with `p` replaced by `t` wherever it stands between a character `q` and a character `e` with `occ q e`, and nothing
else changed. The character after `p` is not part of what is replaced: it may be the quote that opens the next occurrence. -/
inductive Rewritten (occ : Char → Char → Prop) (p t : Str) : Str → Str → Prop
  | nil : Rewritten occ p t [] []
  | here {q e : Char} {r out : Str} : occ q e → Rewritten occ p t (e :: r) out → Rewritten occ p t (q :: (p ++ e :: r)) (q :: (t ++ out))
  | keep {c : Char} {r out : Str} : (∀ e r', occ c e → r ≠ p ++ e :: r') → Rewritten occ p t r out → Rewritten occ p t (c :: r) (c :: out)

/-- Between a quote and the same quote (the whole import path), or between a quote and a slash (a package below it). -/
def ImportOcc (q e : Char) : Prop := (q = '"' ∨ q = '`') ∧ (e = q ∨ e = '/')

/-- No two occurrences of the whole path in quotes share a quote, as in `"p"p"`. In Go source that can happen only in comments and raw strings. -/
def NoSharedQuote (p s : Str) : Prop :=
  ¬ ('"' :: p ++ '"' :: p ++ ['"']) <:+: s ∧ ¬ ('`' :: p ++ '`' :: p ++ ['`']) <:+: s

/-- What is known about the package path of the plugin and the temporary one. -/
structure PathsOK (p t : Str) : Prop where
  noQuote : ∀ c ∈ p, c ≠ '"' ∧ c ≠ '`'
  noQuote' : ∀ c ∈ t, c ≠ '"' ∧ c ≠ '`'
  ne : t ≠ p
  notBelow : ¬ (p ++ ['/']) <+: t
  notAbove : ¬ (t ++ ['/']) <+: p

/-- `\s` of Go's regular expressions: space, tab, newline, form feed, carriage return. -/
def ReSpace (c : Char) : Prop := c.toNat = 0x20 ∨ c.toNat = 0x09 ∨ c.toNat = 0x0A ∨ c.toNat = 0x0C ∨ c.toNat = 0x0D

/-- A file whose copy is compiled begins a line with `package`, white space and a name, up to the next white space. -/
def Clause (ws name post : Str) : Prop :=
  ws ≠ [] ∧ (∀ c ∈ ws, ReSpace c) ∧ name ≠ [] ∧ (∀ c ∈ name, ¬ ReSpace c) ∧ (∀ c r, post = c :: r → ReSpace c)

/-- `PkgRewritten bol s s'`: `s'` is `s` with every package clause at the beginning of a line replaced by `package main`; `bol`: does `s` begin a line? -/
inductive PkgRewritten : Bool → Str → Str → Prop
  | nil {b : Bool} : PkgRewritten b [] []
  | clause {ws name post out : Str} : Clause ws name post → PkgRewritten false post out →
      PkgRewritten true ("package".toList ++ ws ++ name ++ post) ("package main".toList ++ out)
  | keep {b : Bool} {c : Char} {r out : Str} : (b = true → ∀ ws name post, Clause ws name post → c :: r ≠ "package".toList ++ ws ++ name ++ post) →
      PkgRewritten (c == '\n') r out → PkgRewritten b (c :: r) (c :: out)

/-! ### Import paths -/

section
variable {occ occ' : Char → Char → Prop} {p t : Str}

theorem Rewritten.inv {c : Char} {r out : Str} (h : Rewritten occ p t (c :: r) out) :
    (∃ e r' o, occ c e ∧ r = p ++ e :: r' ∧ Rewritten occ p t (e :: r') o ∧ out = c :: (t ++ o)) ∨
    ((∀ e r', occ c e → r ≠ p ++ e :: r') ∧ ∃ o, Rewritten occ p t r o ∧ out = c :: o) := by
  generalize hs : c :: r = s at h
  cases h with
  | nil => cases hs
  | here ho hr => injection hs with h1 h2; subst h1 h2; exact .inl ⟨_, _, _, ho, rfl, hr, rfl⟩
  | keep hk hr => injection hs with h1 h2; subst h1 h2; exact .inr ⟨hk, _, hr, rfl⟩

theorem Rewritten.head {s out : Str} (h : Rewritten occ p t s out) : out.head? = s.head? := by
  cases h <;> rfl

theorem Rewritten.length_pos {c : Char} {r out : Str} (h : Rewritten occ p t (c :: r) out) : ∃ o, out = c :: o := by
  have := h.head
  cases out with
  | nil => cases this
  | cons x o => injection this with this; subst this; exact ⟨o, rfl⟩

/-- Characters that open no occurrence are copied. -/
theorem Rewritten.pull {x r out : Str} (hx : ∀ c ∈ x, ∀ e, ¬ occ c e) (h : Rewritten occ p t (x ++ r) out) :
    ∃ o, out = x ++ o ∧ Rewritten occ p t r o := by
  induction x generalizing out with
  | nil => exact ⟨out, rfl, h⟩
  | cons a x ih =>
    rcases h.inv with ⟨e, _, _, ho, _⟩ | ⟨_, o, ho, rfl⟩
    · exact absurd ho (hx a List.mem_cons_self e)
    · obtain ⟨o', rfl, h'⟩ := ih (fun c hc => hx c (List.mem_cons_of_mem _ hc)) ho
      exact ⟨o', rfl, h'⟩

theorem Rewritten.push {x r o : Str} (hx : ∀ c ∈ x, ∀ e, ¬ occ c e) (h : Rewritten occ p t r o) : Rewritten occ p t (x ++ r) (x ++ o) := by
  induction x with
  | nil => exact h
  | cons a x ih =>
    exact .keep (fun e _ ho _ => hx a List.mem_cons_self e ho) (ih (fun c hc => hx c (List.mem_cons_of_mem _ hc)))

/-- If the output begins with such characters, so does the input. -/
theorem Rewritten.unpush {x r o : Str} (hx : ∀ c ∈ x, ∀ e, ¬ occ c e) (h : Rewritten occ p t r (x ++ o)) :
    ∃ r', r = x ++ r' ∧ Rewritten occ p t r' o := by
  induction x generalizing r with
  | nil => exact ⟨r, rfl, h⟩
  | cons a x ih =>
    cases r with
    | nil => cases h
    | cons b r =>
      obtain ⟨o', ho'⟩ := h.length_pos
      injection ho' with e1 e2
      subst e1
      rcases h.inv with ⟨e, _, _, ho, _⟩ | ⟨_, o'', h'', e3⟩
      · exact absurd ho (hx a List.mem_cons_self e)
      · injection e3 with _ e3
        subst e3
        obtain ⟨r', rfl, h'⟩ := ih (fun c hc => hx c (List.mem_cons_of_mem _ hc)) h''
        exact ⟨r', rfl, h'⟩

/-- The specification determines the result. -/
theorem Rewritten.unique {s a b : Str} (ha : Rewritten occ p t s a) (hb : Rewritten occ p t s b) : a = b := by
  induction ha generalizing b with
  | nil => cases hb; rfl
  | here ho hr ih =>
    rcases hb.inv with ⟨e', r', o', _, e1, h', rfl⟩ | ⟨hk, _⟩
    · have := List.append_cancel_left e1
      rw [← this] at h'
      rw [ih h']
    · exact absurd rfl (hk _ _ ho)
  | keep hk hr ih =>
    rcases hb.inv with ⟨e', r', o', ho, e1, _⟩ | ⟨_, o, h', rfl⟩
    · exact absurd e1 (hk _ _ ho)
    · rw [ih h']

theorem no_new_occurrence (hok : PathsOK p t) {e e' : Char} {o r : Str} (he : e = '/' ∨ e = '"' ∨ e = '`') (he' : e' = '/' ∨ e' = '"' ∨ e' = '`') :
    t ++ e :: o ≠ p ++ e' :: r := by
  intro h
  rcases List.append_eq_append_iff.mp h with ⟨a, h1, h2⟩ | ⟨a, h1, h2⟩
  · -- p = t ++ a
    cases a with
    | nil => rw [List.append_nil] at h1; exact hok.ne h1.symm
    | cons x a =>
      injection h2 with h2 _
      subst h2
      rcases he with rfl | he
      · exact hok.notAbove ⟨a, by rw [h1]; simp⟩
      · have := hok.noQuote e (by rw [h1]; simp)
        rcases he with rfl | rfl
        · exact this.1 rfl
        · exact this.2 rfl
  · cases a with
    | nil => rw [List.append_nil] at h1; exact hok.ne h1
    | cons x a =>
      injection h2 with h2 _
      subst h2
      rcases he' with rfl | he'
      · exact hok.notBelow ⟨a, by rw [h1]; simp⟩
      · have := hok.noQuote' e' (by rw [h1]; simp)
        rcases he' with rfl | rfl
        · exact this.1 rfl
        · exact this.2 rfl

theorem ImportOcc.end' {q e : Char} (h : ImportOcc q e) : e = '/' ∨ e = '"' ∨ e = '`' := by
  rcases h with ⟨rfl | rfl, rfl | rfl⟩ <;> simp

theorem no_occ_of_noQuote {x : Str} (hx : ∀ c ∈ x, c ≠ '"' ∧ c ≠ '`') (hs : ∀ q e, occ q e → ImportOcc q e) : ∀ c ∈ x, ∀ e, ¬ occ c e := by
  intro c hc e h
  rcases (hs c e h).1 with rfl | rfl
  · exact (hx _ hc).1 rfl
  · exact (hx _ hc).2 rfl

/-- Two passes are one. -/
theorem Rewritten.comp (hok : PathsOK p t) (hs : ∀ q e, occ q e → ImportOcc q e) (hs' : ∀ q e, occ' q e → ImportOcc q e) {s s1 : Str}
    (h : Rewritten occ p t s s1) : ∀ {s2 : Str}, Rewritten occ' p t s1 s2 → Rewritten (fun q e => occ q e ∨ occ' q e) p t s s2 := by
  have hu : ∀ q e, occ q e ∨ occ' q e → ImportOcc q e := fun q e h => h.elim (hs q e) (hs' q e)
  induction h with
  | nil => intro s2 h2; cases h2; exact .nil
  | @here q e r o1 ho hr ih =>
    intro s2 h2
    obtain ⟨o1', rfl⟩ := hr.length_pos
    rcases h2.inv with ⟨e', r', _, ho', e1, _⟩ | ⟨_, o, h2', rfl⟩
    · exact absurd e1 (no_new_occurrence hok (hs _ _ ho).end' (hs' _ _ ho').end')
    · obtain ⟨o', rfl, h3⟩ := h2'.pull (no_occ_of_noQuote hok.noQuote' hs')
      exact .here (.inl ho) (ih h3)
  | @keep c r o1 hk hr ih =>
    intro s2 h2
    rcases h2.inv with ⟨e', r', o2, ho', e1, h3, rfl⟩ | ⟨hk', o, h2', rfl⟩
    · subst e1
      obtain ⟨r0, rfl, h4⟩ := hr.unpush (no_occ_of_noQuote hok.noQuote hs)
      have h5 := ih (h3.push (no_occ_of_noQuote hok.noQuote hs'))
      obtain ⟨o5, e5, h6⟩ := h5.pull (no_occ_of_noQuote hok.noQuote hu)
      have := List.append_cancel_left e5
      subst this
      cases r0 with
      | nil => cases h4
      | cons y r0 =>
        obtain ⟨_, e7⟩ := h4.length_pos
        injection e7 with e7 _
        subst e7
        exact .here (.inr ho') h6
    · refine .keep ?_ (ih h2')
      rintro e r' (ho | ho) heq
      · exact hk e r' ho heq
      · subst heq
        obtain ⟨o', rfl, h6⟩ := hr.pull (no_occ_of_noQuote hok.noQuote hs)
        obtain ⟨o'', rfl⟩ := h6.length_pos
        exact hk' e _ ho rfl

theorem Rewritten.congr {s s' : Str} (h : Rewritten occ p t s s') (he : ∀ q e, occ q e ↔ occ' q e) : Rewritten occ' p t s s' := by
  have : occ = occ' := by funext q e; exact propext (he q e)
  rw [← this]; exact h

end

theorem replaceAllFrom_skip (old new x y : Str) : replaceAllFrom old new x.length (x ++ y) = replaceAllFrom old new 0 y := by
  induction x with
  | nil => rfl
  | cons a x ih => simp only [List.length_cons, List.cons_append, replaceAllFrom]; exact ih

/-- One call of `bytes.ReplaceAll`. -/
theorem replaceAll_rewritten (p t : Str) (q e : Char) (n : Nat) (s : Str) (hn : s.length ≤ n)
    (hshare : e ≠ q ∨ ¬ (q :: p ++ q :: p ++ [q]) <:+: s) :
    Rewritten (fun q' e' => q' = q ∧ e' = e) p t s (replaceAll s (q :: p ++ [e]) (q :: t ++ [e])) := by
  unfold replaceAll
  induction n generalizing s with
  | zero =>
    cases s with
    | nil => exact .nil
    | cons c r => simp at hn
  | succ n ih =>
    cases s with
    | nil => exact .nil
    | cons c r =>
      have hsub : ∀ r' : Str, r' <:+ c :: r → e ≠ q ∨ ¬ (q :: p ++ q :: p ++ [q]) <:+: r' := by
        intro r' hr'
        rcases hshare with h | h
        · exact .inl h
        · exact .inr (fun hi => h (hi.trans hr'.isInfix))
      simp only [replaceAllFrom]
      by_cases hp : (q :: p ++ [e]).isPrefixOf (c :: r) = true
      · rw [if_pos hp]
        obtain ⟨r2, hr2⟩ := List.isPrefixOf_iff_prefix.mp hp
        have hc : c = q := by simp at hr2; exact hr2.1.symm
        have hr : r = p ++ e :: r2 := by simp at hr2; rw [← hr2.2]
        subst hc hr
        have hlen : (c :: p ++ [e]).length - 1 = (p ++ [e]).length := by simp
        rw [hlen, show p ++ e :: r2 = (p ++ [e]) ++ r2 by simp, replaceAllFrom_skip]
        have hout : c :: t ++ [e] ++ replaceAllFrom (c :: p ++ [e]) (c :: t ++ [e]) 0 r2 =
            c :: (t ++ (e :: replaceAllFrom (c :: p ++ [e]) (c :: t ++ [e]) 0 r2)) := by simp
        rw [hout, show (p ++ [e]) ++ r2 = p ++ e :: r2 by simp]
        refine .here ⟨rfl, rfl⟩ (.keep ?_ ?_)
        · rintro e' r' ⟨h1, h2⟩ h3
          subst h2 h1
          rcases hshare with h | h
          · exact h rfl
          · apply h
            exact ⟨[], r', by rw [h3]; simp⟩
        · apply ih
          · simp only [List.length_cons, List.length_append] at hn; omega
          · exact hsub r2 ⟨c :: (p ++ [e]), by simp⟩
      · rw [if_neg hp]
        refine .keep ?_ (ih r (by simp at hn; omega) (hsub r ⟨[c], rfl⟩))
        rintro e' r' ⟨rfl, rfl⟩ rfl
        exact hp (List.isPrefixOf_iff_prefix.mpr ⟨r', by simp⟩)

/-- An infix that begins with a character not in `u` lies in what follows `u`. -/
theorem infix_after {u o x a b : Str} {c : Char} (hc : c ∉ u) (h : u ++ o = a ++ (c :: x) ++ b) : (c :: x) <:+: o := by
  rw [List.append_assoc] at h
  rcases List.append_eq_append_iff.mp h with ⟨a', h1, h2⟩ | ⟨a', h1, h2⟩
  · exact ⟨a', b, by rw [h2]; simp⟩
  · cases a' with
    | nil => exact ⟨[], b, by simpa using h2⟩
    | cons y a' =>
      injection h2 with h2 _
      exact absurd (by rw [h1, h2]; simp) hc

/-- A text without the quote `q` that begins with a character not in `t` occurs in the result of rewriting after `q` only if it occurred before. -/
theorem Rewritten.infix_of {p t : Str} {q : Char} {es : Char → Prop} {s s' : Str} (h : Rewritten (fun q' e' => q' = q ∧ es e') p t s s') {c : Char} {x : Str}
    (hq : q ∉ c :: x) (hc : c ∉ t) (hi : (c :: x) <:+: s') : (c :: x) <:+: s := by
  have hpre : ∀ {s s' : Str}, Rewritten (fun q' e' => q' = q ∧ es e') p t s s' → ∀ y : Str, q ∉ y → y <+: s' → y <+: s := by
    intro s s' h
    induction h with
    | nil => intro y _ hy; exact hy
    | here ho hr ih =>
      intro y hqy hy
      cases y with
      | nil => exact ⟨_, rfl⟩
      | cons a y =>
        rw [List.cons_prefix_cons] at hy
        exact absurd (by rw [hy.1, ho.1]; simp) hqy
    | keep hk hr ih =>
      intro y hqy hy
      cases y with
      | nil => exact ⟨_, rfl⟩
      | cons a y =>
        rw [List.cons_prefix_cons] at hy ⊢
        exact ⟨hy.1, ih y (fun hm => hqy (List.mem_cons_of_mem _ hm)) hy.2⟩
  induction h with
  | nil => exact hi
  | @here q' e' r out ho hr ih =>
    obtain ⟨a, b, hab⟩ := hi
    have hnot : c ∉ q' :: t := by
      intro hm
      rcases List.mem_cons.mp hm with rfl | hm
      · exact hq (by rw [ho.1]; simp)
      · exact hc hm
    have h1 := infix_after (u := q' :: t) (o := out) hnot hab.symm
    exact (ih h1).trans ⟨q' :: p, [], by simp⟩
  | @keep c' r out hk hr ih =>
    obtain ⟨a, b, hab⟩ := hi
    cases a with
    | nil =>
      have hp : (c :: x) <+: c' :: out := ⟨b, by simpa using hab⟩
      exact (hpre (.keep hk hr) (c :: x) hq hp).isInfix
    | cons a0 a =>
      injection hab with _ hab
      exact (ih ⟨a, b, hab⟩).trans ⟨[c'], [], by simp⟩

/-- **C51.** When sources are copied, the plugin's package path is replaced by the temporary path exactly where it stands between a double quote or a back-quote
and the same quote or a slash; everything else is unchanged. For every content in which no two complete occurrences share a quote. -/
theorem C51_imports (p t s : Str) (hok : PathsOK p t) (hshare : NoSharedQuote p s) : Rewritten ImportOcc p t s (replaceImports p t s) := by
  have hp : '"' ∉ p ∧ '`' ∉ p := ⟨fun h => (hok.noQuote _ h).1 rfl, fun h => (hok.noQuote _ h).2 rfl⟩
  have ht : '"' ∉ t ∧ '`' ∉ t := ⟨fun h => (hok.noQuote' _ h).1 rfl, fun h => (hok.noQuote' _ h).2 rfl⟩
  unfold replaceImports
  have h1 := replaceAll_rewritten p t '"' '"' _ s (Nat.le_refl _) (.inr hshare.1)
  have h2 := replaceAll_rewritten p t '"' '/' _ (replaceAll s ('"' :: p ++ ['"']) ('"' :: t ++ ['"'])) (Nat.le_refl _) (.inl (by decide))
  have h12 := h1.comp hok (fun q e h => ⟨.inl h.1, .inl (by rw [h.1, h.2])⟩) (fun q e h => ⟨.inl h.1, .inr h.2⟩) h2
  have h12' := h12.congr (occ' := fun q e => q = '"' ∧ (e = '"' ∨ e = '/')) (fun q e => by
    constructor
    · rintro (⟨a, b⟩ | ⟨a, b⟩)
      · exact ⟨a, .inl b⟩
      · exact ⟨a, .inr b⟩
    · rintro ⟨a, b | b⟩
      · exact .inl ⟨a, b⟩
      · exact .inr ⟨a, b⟩)
  have hs3 : ¬ ('`' :: p ++ '`' :: p ++ ['`']) <:+: _ := fun hi =>
    hshare.2 (h12'.infix_of (c := '`') (x := p ++ '`' :: p ++ ['`']) (by
      simp only [List.mem_cons, List.mem_append, List.not_mem_nil, or_false, not_or, List.cons_append]
      exact ⟨by decide, ⟨hp.1, by decide, hp.1⟩, by decide⟩) ht.2 (by simpa using hi) |> (by simpa using ·))
  have h3 := replaceAll_rewritten p t '`' '`' _ _ (Nat.le_refl _) (.inr hs3)
  have h123 := h12'.comp hok (fun q e h => ⟨.inl h.1, by rw [h.1]; exact h.2⟩) (fun q e h => ⟨.inr h.1, .inl (by rw [h.1, h.2])⟩) h3
  have h4 := replaceAll_rewritten p t '`' '/' _ (replaceAll (replaceAll (replaceAll s ('"' :: p ++ ['"']) ('"' :: t ++ ['"'])) ('"' :: p ++ ['/']) ('"' :: t ++ ['/']))
    ('`' :: p ++ ['`']) ('`' :: t ++ ['`'])) (Nat.le_refl _) (.inl (by decide))
  have h1234 := h123.comp hok (fun q e h => by
      rcases h with h | h
      · exact ⟨.inl h.1, by rw [h.1]; exact h.2⟩
      · exact ⟨.inr h.1, .inl (by rw [h.1, h.2])⟩) (fun q e h => ⟨.inr h.1, .inr h.2⟩) h4
  refine h1234.congr ?_
  intro q e
  unfold ImportOcc
  constructor
  · rintro ((⟨rfl, h⟩ | ⟨rfl, rfl⟩) | ⟨rfl, rfl⟩)
    · exact ⟨.inl rfl, h⟩
    · exact ⟨.inr rfl, .inl rfl⟩
    · exact ⟨.inr rfl, .inr rfl⟩
  · rintro ⟨rfl | rfl, rfl | rfl⟩
    · exact .inl (.inl ⟨rfl, .inl rfl⟩)
    · exact .inl (.inl ⟨rfl, .inr rfl⟩)
    · exact .inl (.inr ⟨rfl, rfl⟩)
    · exact .inr ⟨rfl, rfl⟩

/-- **C51.** The specification determines the result: there is only one way to rewrite a content. -/
theorem C51_unique {p t s a b : Str} (ha : Rewritten ImportOcc p t s a) (hb : Rewritten ImportOcc p t s b) : a = b := ha.unique hb

theorem Rewritten.none_left {p t s s' : Str} (hok : PathsOK p t) (h : Rewritten ImportOcc p t s s') (q e : Char) (ho : ImportOcc q e) :
    ¬ (q :: p ++ [e]) <:+: s' := by
  induction h with
  | nil => rintro ⟨a, b, h⟩; simp at h
  | @here q0 e0 r out ho0 hr ih =>
    rintro ⟨a, b, hab⟩
    cases a with
    | nil =>
      simp only [List.nil_append, List.cons_append, List.cons.injEq, List.append_assoc] at hab
      obtain ⟨o', rfl⟩ := hr.length_pos
      exact no_new_occurrence hok ho0.end' ho.end' hab.2.symm
    | cons a0 a =>
      injection hab with _ hab
      have hq : q ∉ t := by
        intro hm
        rcases ho.1 with rfl | rfl
        · exact (hok.noQuote' _ hm).1 rfl
        · exact (hok.noQuote' _ hm).2 rfl
      exact ih (infix_after (u := t) (o := out) hq hab.symm)
  | @keep c r out hk hr ih =>
    rintro ⟨a, b, hab⟩
    cases a with
    | nil =>
      simp only [List.nil_append, List.cons_append, List.cons.injEq, List.append_assoc] at hab
      obtain ⟨rfl, hab⟩ := hab
      rw [← hab] at hr
      obtain ⟨r', rfl, h'⟩ := hr.unpush (no_occ_of_noQuote hok.noQuote (fun _ _ h => h))
      cases r' with
      | nil => cases h'
      | cons y r' =>
        obtain ⟨_, e7⟩ := h'.length_pos
        injection e7 with e7 _
        subst e7
        exact hk _ _ ho rfl
    | cons a0 a =>
      injection hab with _ hab
      exact ih ⟨a, b, hab⟩

/-- **C51.** After the rewriting no quoted occurrence of the plugin's own package path, alone or followed by a slash, is left: the copy imports nothing from the original
plugin. -/
theorem C51_none_left (p t s : Str) (hok : PathsOK p t) (hshare : NoSharedQuote p s) (q e : Char) (ho : ImportOcc q e) :
    ¬ (q :: p ++ [e]) <:+: replaceImports p t s :=
  (C51_imports p t s hok hshare).none_left hok q e ho

/-- **C51.** A content without such an occurrence is copied unchanged. -/
theorem C51_unchanged (p t s : Str) (hok : PathsOK p t) (h : ∀ q e, ImportOcc q e → ¬ (q :: p ++ [e]) <:+: s) : replaceImports p t s = s := by
  have hshare : NoSharedQuote p s := by
    refine ⟨fun hi => h '"' '"' ⟨.inl rfl, .inl rfl⟩ (List.IsInfix.trans ⟨[], p ++ ['"'], by simp⟩ hi), fun hi => h '`' '`' ⟨.inr rfl, .inl rfl⟩ (List.IsInfix.trans ⟨[], p ++ ['`'], by simp⟩ hi)⟩
  have hr := C51_imports p t s hok hshare
  suffices hid : ∀ s : Str, (∀ q e, ImportOcc q e → ¬ (q :: p ++ [e]) <:+: s) → Rewritten ImportOcc p t s s from hr.unique (hid s h)
  intro s
  induction s with
  | nil => intro _; exact .nil
  | cons c r ih =>
    intro h
    refine .keep ?_ (ih (fun q e ho hi => h q e ho (hi.trans ⟨[c], [], by simp⟩)))
    rintro e r' ho rfl
    exact h c e ho ⟨[], r', by simp⟩

/-- **C51.** The temporary package path of build.go:236 is the plugin's path followed by `-commit-time`, if the directory of the plugin bears the name of the last component of
its package path; such a pair meets the assumptions. -/
theorem C51_paths_ok (p x : Str) (hp : ∀ c ∈ p, c ≠ '"' ∧ c ≠ '`') (hx : ∀ c ∈ x, c ≠ '"' ∧ c ≠ '`') : PathsOK p (p ++ '-' :: x) := by
  refine ⟨hp, ?_, by simp, ?_, ?_⟩
  · intro c hc
    rcases List.mem_append.mp hc with hc | hc
    · exact hp c hc
    · rcases List.mem_cons.mp hc with rfl | hc
      · exact ⟨by decide, by decide⟩
      · exact hx c hc
  · rintro ⟨r, hr⟩
    rw [List.append_assoc] at hr
    have := List.append_cancel_left hr
    simp at this
  · intro h
    have := h.length_le
    simp at this
    omega

/-- **C51, the restriction is needed.** If two occurrences share a quote, the second one is not replaced. -/
theorem C51_shared_quote (p t : Str) (hp : '"' ∉ p ∧ '`' ∉ p) (ht : '"' ∉ t ∧ '`' ∉ t) :
    replaceAll ('"' :: p ++ '"' :: p ++ ['"']) ('"' :: p ++ ['"']) ('"' :: t ++ ['"']) = '"' :: t ++ '"' :: p ++ ['"'] := by
  unfold replaceAll
  have hnone : ∀ x : Str, '"' ∉ x → ∀ old new : Str, replaceAllFrom ('"' :: old) new 0 (x ++ ['"']) = x ++ replaceAllFrom ('"' :: old) new 0 ['"'] := by
    intro x hx old new
    induction x with
    | nil => rfl
    | cons a x ih =>
      rw [List.cons_append, replaceAllFrom, if_neg, ih (fun h => hx (List.mem_cons_of_mem _ h))]
      · rfl
      intro h
      rw [List.isPrefixOf_iff_prefix, List.cons_prefix_cons] at h
      exact hx (by rw [h.1]; simp)
  have h1 : replaceAllFrom ('"' :: p ++ ['"']) ('"' :: t ++ ['"']) 0 ('"' :: p ++ '"' :: p ++ ['"']) =
      ('"' :: t ++ ['"']) ++ replaceAllFrom ('"' :: p ++ ['"']) ('"' :: t ++ ['"']) 0 (p ++ ['"']) := by
    simp only [List.cons_append, replaceAllFrom]
    rw [if_pos (by rw [List.isPrefixOf_iff_prefix]; exact ⟨p ++ ['"'], by simp⟩)]
    have : ('"' :: (p ++ ['"'])).length - 1 = (p ++ ['"']).length := by simp
    rw [this, show p ++ '"' :: p ++ ['"'] = (p ++ ['"']) ++ (p ++ ['"']) by simp, replaceAllFrom_skip]
  rw [h1, show ('"' :: p ++ ['"']) = '"' :: (p ++ ['"']) from rfl, hnone p hp.1]
  have : replaceAllFrom ('"' :: (p ++ ['"'])) ('"' :: t ++ ['"']) 0 ['"'] = ['"'] := by
    simp only [replaceAllFrom]
    rw [if_neg]
    intro h
    rw [List.isPrefixOf_iff_prefix] at h
    have := h.length_le
    simp at this
  rw [this]; simp

/-! ### The package clause -/

theorem takeWhile_eq {f : Char → Bool} {x post : Str} (hx : ∀ c ∈ x, f c = true) (hpost : ∀ c r, post = c :: r → f c = false) :
    (x ++ post).takeWhile f = x ∧ (x ++ post).dropWhile f = post := by
  induction x with
  | nil =>
    cases post with
    | nil => exact ⟨rfl, rfl⟩
    | cons c r => simp [hpost c r rfl]
  | cons a x ih =>
    obtain ⟨h1, h2⟩ := ih (fun c hc => hx c (List.mem_cons_of_mem _ hc))
    simp [hx a List.mem_cons_self, h1, h2]

theorem mem_takeWhile' {f : Char → Bool} {x : Str} {c : Char} (h : c ∈ x.takeWhile f) : f c = true := by
  induction x with
  | nil => cases h
  | cons a x ih =>
    rw [List.takeWhile_cons] at h
    split at h
    · rcases List.mem_cons.mp h with rfl | h
      · assumption
      · exact ih h
    · cases h

theorem dropWhile_head {f : Char → Bool} {x : Str} : ∀ c r, x.dropWhile f = c :: r → f c = false := by
  intro c r h
  have := List.head?_dropWhile_not f x
  rw [h] at this
  simpa using this

theorem isSpace_iff (c : Char) : isSpace c = true ↔ ReSpace c := by
  have e : ∀ d : Char, (c == d) = true ↔ c.toNat = d.toNat := by
    intro d
    rw [beq_iff_eq]
    exact ⟨fun h => by rw [h], fun h => Char.ext (UInt32.toNat_inj.mp h)⟩
  unfold isSpace ReSpace
  simp only [Bool.or_eq_true, e]
  constructor
  · rintro ((((h | h) | h) | h) | h)
    · exact .inl h
    · exact .inr (.inl h)
    · exact .inr (.inr (.inl h))
    · exact .inr (.inr (.inr (.inl h)))
    · exact .inr (.inr (.inr (.inr h)))
  · rintro (h | h | h | h | h)
    · exact .inl (.inl (.inl (.inl h)))
    · exact .inl (.inl (.inl (.inr h)))
    · exact .inl (.inl (.inr h))
    · exact .inl (.inr h)
    · exact .inr h

theorem isSpace_false (c : Char) : isSpace c = false ↔ ¬ ReSpace c := by rw [← isSpace_iff]; simp

theorem clause_iff (ws name post : Str) : Clause ws name post ↔
    ws ≠ [] ∧ (∀ c ∈ ws, isSpace c = true) ∧ name ≠ [] ∧ (∀ c ∈ name, isSpace c = false) ∧ (∀ c r, post = c :: r → isSpace c = true) := by
  simp only [isSpace_iff, isSpace_false]; rfl

theorem pkgClauseLen_some {s : Str} {n : Nat} (h : pkgClauseLen s = some n) :
    ∃ ws name post, Clause ws name post ∧ s = "package".toList ++ ws ++ name ++ post ∧ n = 7 + ws.length + name.length := by
  unfold pkgClauseLen at h
  split at h
  · rename_i hp
    obtain ⟨r, rfl⟩ := List.isPrefixOf_iff_prefix.mp hp
    have hd : ("package".toList ++ r).drop 7 = r := rfl
    rw [hd] at h
    simp only at h
    split at h
    · cases h
    · rename_i hne
      rw [not_or] at hne
      injection h with h
      refine ⟨r.takeWhile isSpace, (r.dropWhile isSpace).takeWhile (fun c => !isSpace c), (r.dropWhile isSpace).dropWhile (fun c => !isSpace c), (clause_iff _ _ _).mpr ⟨hne.1, ?_, hne.2, ?_, ?_⟩, ?_, h.symm⟩
      · intro c hc; exact mem_takeWhile' hc
      · intro c hc; have := mem_takeWhile' hc; simpa using this
      · intro c r' h'; have := dropWhile_head c r' h'; simpa using this
      · rw [List.append_assoc, List.append_assoc, List.takeWhile_append_dropWhile, List.takeWhile_append_dropWhile]
  · cases h

theorem pkgClauseLen_clause {ws name post : Str} (h : Clause ws name post) :
    pkgClauseLen ("package".toList ++ ws ++ name ++ post) = some (7 + ws.length + name.length) := by
  obtain ⟨h1, h2, h3, h4, h5⟩ := (clause_iff _ _ _).mp h
  unfold pkgClauseLen
  have hp : "package".toList.isPrefixOf ("package".toList ++ ws ++ name ++ post) = true := by
    rw [List.isPrefixOf_iff_prefix]; exact ⟨ws ++ name ++ post, by simp⟩
  rw [if_pos hp]
  have hd : ("package".toList ++ ws ++ name ++ post).drop 7 = ws ++ (name ++ post) := by
    rw [List.append_assoc, List.append_assoc]; rfl
  rw [hd]
  have hn : ∀ c r, name ++ post = c :: r → isSpace c = false := by
    intro c r hr
    cases name with
    | nil => exact absurd rfl h3
    | cons a name => injection hr with e _; subst e; exact h4 a List.mem_cons_self
  obtain ⟨e1, e2⟩ := takeWhile_eq h2 hn
  obtain ⟨e3, _⟩ := takeWhile_eq (f := fun c => !isSpace c) (x := name) (post := post) (fun c hc => by simp [h4 c hc]) (fun c r hr => by simp [h5 c r hr])
  simp only [e1, e2, e3]
  rw [if_neg (by simp [h1, h3])]

theorem replacePkgFrom_skip (b : Bool) (x y : Str) (hx : x ≠ []) (hl : ∀ c, x.getLast? = some c → c ≠ '\n') :
    replacePkgFrom b x.length (x ++ y) = replacePkgFrom false 0 y := by
  induction x generalizing b with
  | nil => exact absurd rfl hx
  | cons a x ih =>
    simp only [List.length_cons, List.cons_append, replacePkgFrom]
    cases x with
    | nil =>
      have : (a == '\n') = false := by simpa using hl a rfl
      rw [this]; rfl
    | cons a' x => exact ih _ (by simp) (by intro c hc; exact hl c (by simpa using hc))

theorem replacePkgFrom_rewritten (n : Nat) (b : Bool) (s : Str) (hn : s.length ≤ n) : PkgRewritten b s (replacePkgFrom b 0 s) := by
  induction n generalizing b s with
  | zero =>
    cases s with
    | nil => exact .nil
    | cons c r => simp at hn
  | succ n ih =>
    cases s with
    | nil => exact .nil
    | cons c r =>
      have hkeep : (b = true → ∀ ws name post, Clause ws name post → c :: r ≠ "package".toList ++ ws ++ name ++ post) →
          PkgRewritten b (c :: r) (c :: replacePkgFrom (c == '\n') 0 r) := fun h => .keep h (ih _ r (by simp at hn; omega))
      rw [replacePkgFrom]
      cases b with
      | false =>
        simp only [Bool.false_eq_true, if_false]
        exact hkeep (fun h => by cases h)
      | true =>
        simp only [if_true]
        cases hm : pkgClauseLen (c :: r) with
        | none =>
          apply hkeep
          intro _ ws name post hc heq
          rw [heq, pkgClauseLen_clause hc] at hm
          cases hm
        | some m =>
          obtain ⟨ws, name, post, hc, heq, hm'⟩ := pkgClauseLen_some hm
          simp only
          have hr : r = ("ackage".toList ++ ws ++ name) ++ post := by
            have : c :: r = 'p' :: (("ackage".toList ++ ws ++ name) ++ post) := heq
            injection this
          have hlen : m - 1 = ("ackage".toList ++ ws ++ name).length := by
            rw [hm']; simp; omega
          have hnn := hc.2.2.1
          rw [heq, hr, hlen, replacePkgFrom_skip _ _ _ (by simp) ?_]
          · refine .clause hc (ih _ post ?_)
            have := congrArg List.length heq
            simp at this hn
            omega
          · intro x hx
            have hx' : name.getLast? = some x := by
              rw [List.getLast?_append] at hx
              cases hq : name.getLast? with
              | none => exact absurd (List.getLast?_eq_none_iff.mp hq) hnn
              | some z => rw [hq] at hx; exact hx
            have h4 := hc.2.2.2.1 x (List.mem_of_getLast? hx')
            rintro rfl
            exact h4 (.inr (.inr (.inl rfl)))

/-- **C51.** In the files of the plugin's top directory every package clause at the beginning of a line becomes `package main`, and nothing else changes. -/
theorem C51_package_clause (s : Str) : PkgRewritten true s (replacePkg s) := replacePkgFrom_rewritten _ true s (Nat.le_refl _)

theorem clause_unique {ws name post ws' name' post' : Str} (h : Clause ws name post) (h' : Clause ws' name' post')
    (he : "package".toList ++ ws ++ name ++ post = "package".toList ++ ws' ++ name' ++ post') : ws = ws' ∧ name = name' ∧ post = post' := by
  rw [clause_iff] at h h'
  have he' : ws ++ (name ++ post) = ws' ++ (name' ++ post') := by
    rw [List.append_assoc, List.append_assoc, List.append_assoc, List.append_assoc] at he
    exact List.append_cancel_left he
  have hn : ∀ {name post : Str}, name ≠ [] → (∀ c ∈ name, isSpace c = false) → ∀ c r, name ++ post = c :: r → isSpace c = false := by
    intro name post h3 h4 c r hr
    cases name with
    | nil => exact absurd rfl h3
    | cons a name => injection hr with e _; subst e; exact h4 a List.mem_cons_self
  obtain ⟨a1, a2⟩ := takeWhile_eq h.2.1 (hn h.2.2.1 h.2.2.2.1 (post := post))
  obtain ⟨b1, b2⟩ := takeWhile_eq h'.2.1 (hn h'.2.2.1 h'.2.2.2.1 (post := post'))
  have e1 : ws = ws' := by rw [← a1, ← b1, he']
  subst e1
  have e2 : name ++ post = name' ++ post' := List.append_cancel_left he'
  obtain ⟨c1, c2⟩ := takeWhile_eq (f := fun c => !isSpace c) (x := name) (post := post) (fun c hc => by simp [h.2.2.2.1 c hc]) (fun c r hr => by simp [h.2.2.2.2 c r hr])
  obtain ⟨d1, d2⟩ := takeWhile_eq (f := fun c => !isSpace c) (x := name') (post := post') (fun c hc => by simp [h'.2.2.2.1 c hc]) (fun c r hr => by simp [h'.2.2.2.2 c r hr])
  exact ⟨rfl, by rw [← c1, ← d1, e2], by rw [← c2, ← d2, e2]⟩

/-- **C51.** This specification, too, determines the result. -/
theorem C51_package_unique {b : Bool} {s x y : Str} (hx : PkgRewritten b s x) (hy : PkgRewritten b s y) : x = y := by
  induction hx generalizing y with
  | nil => cases hy; rfl
  | @clause ws name post out hc hr ih =>
    generalize hs : "package".toList ++ ws ++ name ++ post = s at hy
    generalize hb : true = b at hy
    cases hy with
    | nil => simp at hs
    | clause hc' hr' =>
      obtain ⟨rfl, rfl, rfl⟩ := clause_unique hc hc' hs
      rw [ih hr']
    | keep hk hr' => exact absurd hs.symm (hk hb.symm _ _ _ hc)
  | @keep b c r out hk hr ih =>
    generalize hs : c :: r = s at hy
    cases hy with
    | nil => cases hs
    | clause hc' hr' => exact absurd hs (hk rfl _ _ _ hc')
    | keep hk' hr' => injection hs with e1 e2; subst e1 e2; rw [ih hr']

/-- **C51, caveat.** The replacement looks at lines, not at Go syntax: a line of a raw string that begins with `package` is changed, too. -/
theorem C51_package_line_in_string :
    replacePkg "package foo\nconst tpl = `\npackage bar\n`\n".toList = "package main\nconst tpl = `\npackage main\n`\n".toList := by decide +kernel

/-- **C51.** The contents of the copy of a file: a file that is not a Go file is copied as it is; in a Go file below the top directory the import paths are rewritten;
in a Go file of the top directory first the package clause, then the import paths. -/
theorem C51_copy (p t : Str) (rel : List Str) (s : Str) (hok : PathsOK p t) :
    (¬ ".go".toList <:+ rel.getLastD [] → copyContents p t rel s = s) ∧
    (".go".toList <:+ rel.getLastD [] → rel.length ≠ 1 → NoSharedQuote p s → Rewritten ImportOcc p t s (copyContents p t rel s)) ∧
    (".go".toList <:+ rel.getLastD [] → rel.length = 1 → ∃ mid, PkgRewritten true s mid ∧ (NoSharedQuote p mid → Rewritten ImportOcc p t mid (copyContents p t rel s))) := by
  unfold copyContents
  refine ⟨fun h => ?_, fun h hl hs => ?_, fun h hl => ?_⟩
  · rw [if_neg]; intro h'; exact h (List.isSuffixOf_iff_suffix.mp h')
  · rw [if_pos (show Str.hasSuffix (rel.getLastD []) ".go".toList = true from List.isSuffixOf_iff_suffix.mpr h)]
    have : (rel.length == 1) = false := by simpa using hl
    rw [this]
    exact C51_imports p t s hok hs
  · rw [if_pos (show Str.hasSuffix (rel.getLastD []) ".go".toList = true from List.isSuffixOf_iff_suffix.mpr h), hl]
    exact ⟨replacePkg s, C51_package_clause s, fun hs => C51_imports p t _ hok hs⟩

/-! ### Examples -/

example : PathsOK "x.org/m/foo".toList "x.org/m/foo-c-1".toList :=
  C51_paths_ok "x.org/m/foo".toList "c-1".toList (by decide) (by decide)

example : replaceCode "m/foo".toList "m/foo-c".toList true "package foo\nimport a \"m/foo/a\"\nimport `m/foo`\nimport \"m/foobar\"\n".toList =
    "package main\nimport a \"m/foo-c/a\"\nimport `m/foo-c`\nimport \"m/foobar\"\n".toList := by decide +kernel

end Hotswap.Cli
