import Verif.Model.Monad

/-! Weakest preconditions for the computation monad. -/

namespace Hotswap

/-- An error or a panic. -/
abbrev Fail := Err ⊕ Panic

/-- `x` started in `s` ends in a state satisfying `R` (normal) or `F` (error or panic). -/
def wp (x : M α) (R : α → LoadSt → Prop) (F : Fail → LoadSt → Prop) (s : LoadSt) : Prop :=
  match x s with
  | (.ok a, s') => R a s'
  | (.err e, s') => F (.inl e) s'
  | (.panic p, s') => F (.inr p) s'

variable {α β : Type} {R R' : α → LoadSt → Prop} {F F' : Fail → LoadSt → Prop} {s : LoadSt}

theorem wp_mono {x : M α} (h : wp x R F s) (hR : ∀ a s', R a s' → R' a s') (hF : ∀ f s', F f s' → F' f s') :
    wp x R' F' s := by
  unfold wp at *
  split at h
  · exact hR _ _ h
  · exact hF _ _ h
  · exact hF _ _ h

theorem wp_and {x : M α} (h : wp x R F s) (h' : wp x R' F' s) :
    wp x (fun a s => R a s ∧ R' a s) (fun f s => F f s ∧ F' f s) s := by
  unfold wp at *
  split at h <;> simp_all

@[simp] theorem wp_pure (a : α) : wp (Pure.pure a : M α) R F s ↔ R a s := Iff.rfl
@[simp] theorem wp_mpure (a : α) : wp (M.pure a : M α) R F s ↔ R a s := Iff.rfl
@[simp] theorem wp_throw (e : Err) : wp (M.throw e : M α) R F s ↔ F (.inl e) s := Iff.rfl
@[simp] theorem wp_panic (p : Panic) : wp (M.panic p : M α) R F s ↔ F (.inr p) s := Iff.rfl
@[simp] theorem wp_get {R : LoadSt → LoadSt → Prop} : wp M.get R F s ↔ R s s := Iff.rfl
@[simp] theorem wp_emit {R : Unit → LoadSt → Prop} (a : Act) :
    wp (M.emit a) R F s ↔ R () { s with acts := s.acts ++ [a] } := Iff.rfl
@[simp] theorem wp_modPm {R : Unit → LoadSt → Prop} (f : Manager → Manager) :
    wp (M.modPm f) R F s ↔ R () { s with pm := f s.pm } := Iff.rfl
@[simp] theorem wp_alloc {R : Nat → LoadSt → Prop} :
    wp M.alloc R F s ↔ R s.next { s with next := s.next + 1 } := Iff.rfl

theorem wp_mbind {R : β → LoadSt → Prop} (x : M α) (f : α → M β) :
    wp (M.bind x f) R F s ↔ wp x (fun a s' => wp (f a) R F s') F s := by
  unfold wp M.bind
  cases h : x s with
  | mk e s' => cases e <;> simp

@[simp] theorem wp_bind {R : β → LoadSt → Prop} (x : M α) (f : α → M β) :
    wp (x >>= f) R F s ↔ wp x (fun a s' => wp (f a) R F s') F s := wp_mbind x f

@[simp] theorem wp_map {R : β → LoadSt → Prop} (x : M α) (f : α → β) :
    wp (f <$> x) R F s ↔ wp x (fun a s' => R (f a) s') F s := wp_mbind x (fun a => M.pure (f a))

/-- Loop rule: `I done` holds when the elements `done` have been processed. -/
theorem wp_forEach (l : List α) (f : α → M Unit) (I : List α → LoadSt → Prop)
    (R : Unit → LoadSt → Prop)
    (h0 : I [] s)
    (hstep : ∀ done a rest s, l = done ++ a :: rest → I done s → wp (f a) (fun _ s' => I (done ++ [a]) s') F s)
    (hend : ∀ s, I l s → R () s) :
    wp (M.forEach l f) R F s := by
  have key : ∀ (rest done : List α) (s : LoadSt), l = done ++ rest → I done s →
      wp (M.forEach rest f) R F s := by
    intro rest
    induction rest with
    | nil =>
      intro done s hl hI
      simp at hl; subst hl
      exact hend s hI
    | cons a rest ih =>
      intro done s hl hI
      rw [M.forEach, wp_mbind]
      refine wp_mono (hstep done a rest s hl hI) (fun _ s' hs' => ?_) (fun _ _ h => h)
      exact ih (done ++ [a]) s' (by simp [hl]) hs'
  exact key l [] s rfl h0

/-- What an execution satisfies, from what its weakest precondition says. -/
theorem wp_run {x : M α} (h : wp x R F s) {e : Exit α} {s' : LoadSt} (hx : x s = (e, s')) :
    match e with
    | .ok a => R a s'
    | .err e => F (.inl e) s'
    | .panic p => F (.inr p) s' := by
  unfold wp at h
  rw [hx] at h
  cases e <;> exact h

theorem wp_intro {x : M α} (hok : ∀ a s', x s = (.ok a, s') → R a s')
    (herr : ∀ e s', x s = (.err e, s') → F (.inl e) s')
    (hpanic : ∀ p s', x s = (.panic p, s') → F (.inr p) s') : wp x R F s := by
  unfold wp
  split
  · exact hok _ _ ‹_›
  · exact herr _ _ ‹_›
  · exact hpanic _ _ ‹_›

end Hotswap
