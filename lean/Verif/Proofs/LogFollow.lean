import Verif.Spec.Logging
import Verif.Proofs.KeptFirst

/-! A load with a logger that may panic, compared with the same load with a logger that does not. -/

namespace Hotswap

variable [GoRuntime]

open LM (lift write)

/-- How the code sees a panic of the logger. -/
def Line.raw : Line → Fail
  | .stats _ _ _ => .inr .user
  | .onLoad n => .inl (.hookPanic n)
  | .onInit n => .inl (.hookPanic n)
  | .static => .inr .user

/-- The exit of a failure. -/
def exitOf {α : Type} : Fail → Exit α
  | .inl e => .err e
  | .inr p => .panic p

/-- What relates the line, the state in which it was written, and the final state. -/
abbrev CutRel := Line → Fail → LoadSt → LoadSt → Prop

/-- The run `r` has been ended by a panic of the logger, `r'` has not. -/
structure Cut {α : Type} (lg : Logger) (K : CutRel) (n0 : Nat) (r r' : Exit α × LogSt) : Prop where
  intro ::
  ex : ∃ n pos l f cs, n0 ≤ n ∧ lg n = true ∧ (∀ i, n0 ≤ i → i < n → lg i = false) ∧ r'.2.lines[n]? = some (pos, l) ∧ r.2.lines = r'.2.lines.take (n + 1) ∧
    r.1 = exitOf f ∧ pos ≤ r'.2.st.acts.length ∧ cs.acts = r'.2.st.acts.take pos ∧ K l f cs r.2.st

/-- `x` with the logger `lg` does what `y` does with a logger that does not panic, until the logger panics. -/
structure Follows {α : Type} (lg : Logger) (K : CutRel) (x y : LM α) : Prop where
  lines : ∀ s, ∃ l, (y s).2.lines = s.lines ++ l
  acts : ∀ s, ∃ l, (y s).2.st.acts = s.st.acts ++ l
  rel : ∀ s, (x s = y s ∧ ∀ i, s.lines.length ≤ i → i < (y s).2.lines.length → lg i = false) ∨ Cut lg K s.lines.length (x s) (y s)

variable {lg : Logger} {K : CutRel} {α β : Type}

theorem Follows.bind' {x y : LM α} {f g : α → LM β} (hx : Follows lg K x y) (hf : ∀ a, Follows lg K (f a) (g a)) : Follows lg K (LM.bind x f) (LM.bind y g) := by
  have hy : ∀ s, (∃ l, (LM.bind y g s).2.lines = (y s).2.lines ++ l) ∧ (∃ l, (LM.bind y g s).2.st.acts = (y s).2.st.acts ++ l) := by
    intro s
    unfold LM.bind
    rcases hys : y s with ⟨e, t⟩
    cases e with
    | ok a => exact ⟨(hf a).lines t, (hf a).acts t⟩
    | err e => exact ⟨⟨[], by simp⟩, ⟨[], by simp⟩⟩
    | panic p => exact ⟨⟨[], by simp⟩, ⟨[], by simp⟩⟩
  refine ⟨?_, ?_, ?_⟩
  · intro s
    obtain ⟨l, hl⟩ := hx.lines s
    obtain ⟨⟨l', hl'⟩, _⟩ := hy s
    exact ⟨l ++ l', by rw [hl', hl, List.append_assoc]⟩
  · intro s
    obtain ⟨l, hl⟩ := hx.acts s
    obtain ⟨_, ⟨l', hl'⟩⟩ := hy s
    exact ⟨l ++ l', by rw [hl', hl, List.append_assoc]⟩
  · intro s
    rcases hx.rel s with ⟨he, hq⟩ | ⟨n, pos, l, fl, cs, h1, h2, h3, h4, h5, h6, h7, h8, h9⟩
    · have hb : LM.bind x f s = LM.bind y f s := by unfold LM.bind; rw [he]
      rw [hb]
      obtain ⟨l0, hl0⟩ := hx.lines s
      unfold LM.bind
      rcases hys : y s with ⟨e, t⟩
      rw [hys] at hl0 hq
      cases e with
      | err e => exact .inl ⟨rfl, hq⟩
      | panic p => exact .inl ⟨rfl, hq⟩
      | ok a =>
        simp only at hl0 hq ⊢
        have hlen : s.lines.length ≤ t.lines.length := by rw [hl0]; simp
        rcases (hf a).rel t with ⟨he', hq'⟩ | ⟨n, pos, l, fl, cs, h1, h2, h3, hrest⟩
        · refine .inl ⟨he', fun i hi hj => ?_⟩
          by_cases hit : i < t.lines.length
          · exact hq i hi hit
          · exact hq' i (by omega) hj
        · refine .inr ⟨n, pos, l, fl, cs, by omega, h2, fun i hi hj => ?_, hrest⟩
          by_cases hit : i < t.lines.length
          · exact hq i hi hit
          · exact h3 i (by omega) hj
    · right
      obtain ⟨⟨l', hl'⟩, ⟨e', he'⟩⟩ := hy s
      have hn : n < (y s).2.lines.length := (List.getElem?_eq_some_iff.mp h4).1
      have hb : (LM.bind x f s).1 = exitOf fl ∧ (LM.bind x f s).2 = (x s).2 := by
        unfold LM.bind
        rcases hxs : x s with ⟨e, t⟩
        rw [hxs] at h6
        simp only at h6
        subst h6
        cases fl <;> exact ⟨rfl, rfl⟩
      refine ⟨n, pos, l, fl, cs, h1, h2, h3, ?_, ?_, hb.1, ?_, ?_, ?_⟩
      · rw [hl', List.getElem?_append_left hn]; exact h4
      · rw [hb.2, h5, hl', List.take_append_of_le_length (by omega)]
      · rw [he', List.length_append]; omega
      · rw [he', List.take_append_of_le_length h7]; exact h8
      · rw [hb.2]; exact h9

theorem Follows.bind {x y : LM α} {f g : α → LM β} (hx : Follows lg K x y) (hf : ∀ a, Follows lg K (f a) (g a)) : Follows lg K (x >>= f) (y >>= g) := Follows.bind' hx hf

theorem Follows.lift {x : M α} (h : EmitsOnly (fun _ => True) x) : Follows lg K (lift x) (lift x) :=
  ⟨fun s => ⟨[], by simp [LM.lift]⟩, fun s => (by obtain ⟨l, hl, _⟩ := h s.st; exact ⟨l, hl⟩), fun s => .inl ⟨rfl, fun i hi hj => absurd hj (by simp only [LM.lift]; omega)⟩⟩

theorem EmitsOnly.weaken {P : Act → Prop} {x : M α} (h : EmitsOnly P x) : EmitsOnly (fun _ => True) x := by
  intro s
  obtain ⟨l, hl, _⟩ := h s
  exact ⟨l, hl, fun _ _ => trivial⟩

theorem Follows.forEach {l : List α} {f g : α → LM Unit} (hf : ∀ a, Follows lg K (f a) (g a)) : Follows lg K (LM.forEach l f) (LM.forEach l g) := by
  induction l with
  | nil => exact Follows.lift (EmitsOnly.pure ())
  | cons a r ih => exact Follows.bind' (hf a) (fun _ => ih)

theorem Follows.ite {c : Prop} [Decidable c] {x y x' y' : LM α} (h : Follows lg K x y) (h' : Follows lg K x' y') : Follows lg K (if c then x else x') (if c then y else y') := by
  split <;> assumption

/-- The body of a load: the state is the one in which the line was written. -/
def inBody : CutRel := fun l f cs s => f = l.raw ∧ s = cs

/-- After the cleanup. -/
def afterBody (it : Iter) : CutRel := fun l f cs s => f = .inl l.err ∧ s = (invokeEveryOnFree it cs).2

theorem Follows.write (l : Line) (h : l.raw = .inr .user) : Follows lg inBody (write lg l) (write quiet l) := by
  refine ⟨fun s => ⟨_, rfl⟩, fun s => ⟨[], by simp [LM.write]⟩, fun s => ?_⟩
  cases hl : lg s.lines.length with
  | false =>
    refine .inl ⟨by simp [LM.write, hl, quiet], fun i hi hj => ?_⟩
    simp only [LM.write, List.length_append, List.length_cons, List.length_nil] at hj
    have : i = s.lines.length := by omega
    subst this; exact hl
  | true =>
    refine .inr ⟨s.lines.length, s.st.acts.length, l, .inr .user, s.st, Nat.le_refl _, hl, fun i hi hj => absurd hj (by omega), ?_, ?_, ?_, ?_, ?_, h.symm, rfl⟩
    · simp [LM.write]
    · simp only [LM.write]; rw [List.take_of_length_le (by simp)]
    · simp [LM.write, hl, exitOf]
    · simp [LM.write]
    · simp [LM.write]

theorem Follows.debug (p : Str) (l : Line) (h : l.raw = .inl (.hookPanic p)) : Follows lg inBody (debugLine lg p l) (debugLine quiet p l) := by
  have hq : ∀ s, debugLine quiet p l s = (.ok (), ⟨s.st, s.lines ++ [(s.st.acts.length, l)]⟩) := by
    intro s; unfold debugLine LM.write quiet; simp
  refine ⟨fun s => ⟨_, by rw [hq]⟩, fun s => ⟨[], by rw [hq]; simp⟩, fun s => ?_⟩
  rw [hq]
  cases hl : lg s.lines.length with
  | false =>
    refine .inl ⟨by unfold debugLine LM.write; simp [hl], fun i hi hj => ?_⟩
    simp only [List.length_append, List.length_cons, List.length_nil] at hj
    have : i = s.lines.length := by omega
    subst this; exact hl
  | true =>
    have hx : debugLine lg p l s = (.err (.hookPanic p), ⟨s.st, s.lines ++ [(s.st.acts.length, l)]⟩) := by unfold debugLine LM.write; simp [hl]
    rw [hx]
    refine .inr ⟨s.lines.length, s.st.acts.length, l, .inl (.hookPanic p), s.st, Nat.le_refl _, hl, fun i hi hj => absurd hj (by omega), ?_, ?_, rfl, ?_, ?_, h.symm, rfl⟩
    · simp
    · simp only; rw [List.take_of_length_le (by simp)]
    · simp
    · simp

theorem emits_free_only (it : Iter) (s : LoadSt) : (invokeEveryOnFree it s).2.acts = s.acts ++ (freeOrder it s.pm).map (fun p => .release p.inst) := rfl

theorem errOf_raw (l : Line) : errOf l.raw = l.err := by cases l <;> rfl

theorem Follows.cleanup (it : Iter) {x y : LM Unit} (h : Follows lg inBody x y) : Follows lg (afterBody it) (withCleanupL it x) (withCleanupL it y) := by
  have hl : ∀ (z : LM Unit) s, (withCleanupL it z s).2.lines = (z s).2.lines := by
    intro z s
    unfold withCleanupL
    rcases z s with ⟨_ | _ | _, _⟩ <;> rfl
  have ha : ∀ (z : LM Unit) s, ∃ e, (withCleanupL it z s).2.st.acts = (z s).2.st.acts ++ e := by
    intro z s
    unfold withCleanupL
    rcases z s with ⟨_ | _ | _, _⟩
    · exact ⟨[], by simp⟩
    · exact ⟨_, rfl⟩
    · exact ⟨_, rfl⟩
  refine ⟨fun s => by rw [hl]; exact h.lines s, fun s => ?_, fun s => ?_⟩
  · obtain ⟨l, h1⟩ := h.acts s
    obtain ⟨e, h2⟩ := ha y s
    exact ⟨l ++ e, by rw [h2, h1, List.append_assoc]⟩
  · rcases h.rel s with ⟨he, hq⟩ | ⟨n, pos, l, fl, cs, h1, h2, h3, h4, h5, h6, h7, h8, hf, hs⟩
    · refine .inl ⟨by unfold withCleanupL; rw [he], ?_⟩
      rw [hl]; exact hq
    · right
      obtain ⟨e, he⟩ := ha y s
      subst hf
      refine ⟨n, pos, l, .inl l.err, cs, h1, h2, h3, by rw [hl]; exact h4, by rw [hl, hl]; exact h5, ?_, ?_, ?_, rfl, ?_⟩
      · unfold withCleanupL
        rcases hxs : x s with ⟨e', t⟩
        rw [hxs] at h6
        simp only at h6
        subst h6
        rw [← errOf_raw]
        cases l <;> rfl
      · rw [he, List.length_append]; omega
      · rw [he, List.take_append_of_le_length h7]; exact h8
      · unfold withCleanupL
        rcases hxs : x s with ⟨e', t⟩
        rw [hxs] at h6 hs
        simp only at h6 hs
        subst h6 hs
        cases l <;> rfl

end Hotswap
