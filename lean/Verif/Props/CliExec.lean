import Verif.Model.Cli.Exec

/-!
# The temporary directory and the exit code of a build (C49, C56)
-/

namespace Hotswap.Cli.Exec

/-! ### Specification: what an execution that ends with exit code 0 may have done

`Outcome i body done`: of the operations `body` exactly `done` were completed, in this order; `i` tells whether SIGINT had been handled before. -/

inductive Outcome : Bool → List Op → List Op → Prop
  | nil {i : Bool} : Outcome i [] []
  /-- an operation was completed; after SIGINT no check is passed -/
  | done {i : Bool} {o : Op} {r c : List Op} : (o = .check → i = false) → Outcome i r c → Outcome i (o :: r) (o :: c)
  /-- after SIGINT files may not have been copied -/
  | noCopy {i : Bool} {r c : List Op} : Outcome true r c → Outcome i (.copy :: r) c
  /-- after SIGINT a check skips the rest of `completePlugin` -/
  | cut {i : Bool} {a r c : List Op} : .ret ∉ a → Outcome true (.ret :: r) c → Outcome i (.check :: a ++ .ret :: r) c

theorem Outcome.mono {i : Bool} {r c : List Op} (h : Outcome i r c) : Outcome false r c := by
  induction h with
  | nil => exact .nil
  | done _ _ ih => exact .done (fun _ => rfl) ih
  | noCopy h _ => exact .noCopy h
  | cut ha h _ => exact .cut ha h

theorem Outcome.all (r : List Op) : Outcome false r r := by
  induction r with
  | nil => exact .nil
  | cons o r ih => exact .done (fun _ => rfl) ih

/-- Nothing but operations of the body is done, and in their order. -/
theorem Outcome.sublist {i : Bool} {r c : List Op} (h : Outcome i r c) : List.Sublist c r := by
  induction h with
  | nil => exact .slnil
  | done _ _ ih => exact ih.cons_cons _
  | noCopy _ ih => exact ih.cons _
  | cut _ _ ih => exact (ih.trans (List.sublist_append_right _ _))

/-- Operations that do not depend on interrupts are done. -/
theorem Outcome.plain {i : Bool} {r c : List Op} (h : Outcome i r c) (hp : ∀ o ∈ r, o ≠ .copy ∧ o ≠ .check) : c = r := by
  induction h with
  | nil => rfl
  | done _ _ ih => rw [ih fun o ho => hp o (List.mem_cons_of_mem _ ho)]
  | noCopy _ _ => exact absurd rfl (hp .copy List.mem_cons_self).1
  | cut _ _ _ => exact absurd rfl (hp .check (by simp)).2

/-- What comes after `completePlugin` is done in any case. -/
theorem Outcome.tail {i : Bool} {r c : List Op} (h : Outcome i r c) : ∀ {p q : List Op}, r = p ++ .ret :: q → (∀ o ∈ q, o ≠ .copy ∧ o ≠ .check) →
    ∃ p', c = p' ++ .ret :: q := by
  induction h with
  | nil => intro p q he _; simp at he
  | @done i o r c hi h ih =>
    intro p q he hq
    cases p with
    | nil =>
      simp only [List.nil_append, List.cons.injEq] at he
      obtain ⟨rfl, rfl⟩ := he
      exact ⟨[], by rw [h.plain hq]; rfl⟩
    | cons o' p =>
      simp only [List.cons_append, List.cons.injEq] at he
      obtain ⟨rfl, rfl⟩ := he
      obtain ⟨p', rfl⟩ := ih rfl hq
      exact ⟨o :: p', rfl⟩
  | @noCopy i r c h ih =>
    intro p q he hq
    cases p with
    | nil => simp at he
    | cons o' p =>
      simp only [List.cons_append, List.cons.injEq] at he
      obtain ⟨rfl, rfl⟩ := he
      exact ih rfl hq
  | @cut i a r c ha h ih =>
    intro p q he hq
    rcases List.append_eq_append_iff.mp he with ⟨a', rfl, h2⟩ | ⟨b, h1, h2⟩
    · exact ih h2 hq
    · cases b with
      | nil => exact ih (p := []) h2.symm hq
      | cons o b =>
        simp only [List.cons_append, List.cons.injEq] at h2
        obtain ⟨rfl, rfl⟩ := h2
        cases p with
        | nil => simp at h1
        | cons o p =>
          simp only [List.cons_append, List.cons.injEq] at h1
          rw [h1.2] at ha
          simp at ha

/-! ### The invariant -/

structure Inv (leave pre : Bool) (body : List Op) (s : St) : Prop where
  /-- after the removal the directory is there only if it is to be kept or was created again -/
  removed : s.watch = .done → s.dir = true → leave = true ∨ s.recreated = true
  exited : ∀ ok, s.main = .exited ok → s.watch = .done
  woken : ∀ ok, s.main = .waiting ok → s.watch = .waiting → s.buf ≠ none
  /-- without a signal nothing is received before the work is over -/
  quiet : s.signalled = false → s.recreated = false ∧ s.interrupt = false ∧
    ((s.watch = .waiting ∧ s.buf = none) ∨ (∃ ok, s.main = .waiting ok ∧ (s.buf = some .quit ∨ s.buf = none) ∧ s.watch ≠ .received .int ∧ s.watch ≠ .received .term) ∨ (∃ ok, s.main = .exited ok) ∨ s.main = .killed)
  recreated : s.recreated = true → s.signalled = true
  /-- without SIGINT nothing is skipped -/
  work : ∀ r, s.main = .work r → s.interrupt = false → s.completed ++ r = body
  complete : (s.main = .deferred true ∨ s.main = .waiting true ∨ s.main = .exited true) → s.interrupt = false → s.completed = body
  suffix : ∀ r, s.main = .work r → r <:+ body

theorem Inv.init (leave pre : Bool) (body : List Op) : Inv leave pre body (St.init pre body) := by
  refine ⟨?_, ?_, ?_, ?_, ?_, ?_, ?_, ?_⟩
  · intro h; cases h
  · intro ok h; cases h
  · intro ok h; cases h
  · intro _; exact ⟨rfl, rfl, .inl ⟨rfl, rfl⟩⟩
  · intro h; cases h
  · intro r h _; injection h with h; exact h.symm
  · rintro (h | h | h) <;> cases h
  · intro r h; injection h with h; rw [h]; exact List.suffix_refl _

theorem Inv.step {leave pre : Bool} {body : List Op} {s t : St} (h : Inv leave pre body s) (st : Step leave s t) : Inv leave pre body t := by
  obtain ⟨h1, h2, h3, h4, h5, h6, h7, h8⟩ := h
  obtain ⟨main, watch, buf, reset, interrupt, dir, signalled, recreated, completed⟩ := s
  cases st with
  | mkdir hm =>
    simp only at *; subst hm; constructor <;> simp_all
    · rintro (h | h)
      · exact h5 h
      cases hs : signalled with
      | true => rfl
      | false => have := h4 hs; simp_all
    · exact (List.suffix_cons _ _).trans h8
  | inDir hm ho hd => simp only at *; subst hm; constructor <;> simp_all; exact (List.suffix_cons _ _).trans h8
  | other hm ho => simp only at *; subst hm; constructor <;> simp_all; exact (List.suffix_cons _ _).trans h8
  | pass hm hi => simp only at *; subst hm; constructor <;> simp_all; exact (List.suffix_cons _ _).trans h8
  | cut hm ha hi => simp only at *; subst hm; constructor <;> simp_all; exact ((List.suffix_append _ _).trans (List.suffix_cons _ _)).trans h8
  | cutCopy hm hi => simp only at *; subst hm; constructor <;> simp_all; exact (List.suffix_cons _ _).trans h8
  | panic hm => simp only at *; subst hm; constructor <;> simp_all
  | crash hm => simp only at *; subst hm; constructor <;> simp_all
  | finish hm => simp only at *; subst hm; constructor <;> simp_all
  | quit hm => simp only at *; subst hm; constructor <;> simp_all
  | exit hm hw => simp only at *; subst hm; constructor <;> simp_all
  | receive ha hw hb =>
    simp only at *; subst hw; constructor <;> simp_all
    intro hs
    rcases (h4 hs).2.2 with ⟨h, rfl⟩ | h
    · exact .inl ⟨h, by decide, by decide⟩
    · exact .inr h
  | reset ha hw =>
    simp only at *; subst hw; constructor <;> simp_all
    intro hs
    rcases (h4 hs).2.2 with ⟨a, b, c, _⟩ | h
    · exact ⟨c, .inl ⟨a, b⟩⟩
    · exact absurd h ha.1
  | remove ha hw => simp only at *; subst hw; constructor <;> simp_all

theorem Inv.env {leave pre : Bool} {body : List Op} {s t : St} (h : Inv leave pre body s) (st : Env s t) : Inv leave pre body t := by
  obtain ⟨h1, h2, h3, h4, h5, h6, h7, h8⟩ := h
  obtain ⟨main, watch, buf, reset, interrupt, dir, signalled, recreated, completed⟩ := s
  cases st with
  | notify ha hx hr => constructor <;> simp_all
  | kill ha hr => constructor <;> simp_all

theorem Run.inv {leave pre : Bool} {body : List Op} {n : Nat} {s : St} (r : Run leave pre body n s) : Inv leave pre body s := by
  induction r with
  | init => exact Inv.init leave pre body
  | step _ st ih => exact ih.step st
  | env _ st ih => exact ih.env st

/-! ### C49 -/

/-- **C49.** If no signal arrives, the temporary directory does not exist when the command ends, whether it succeeded or failed, unless it is to be kept. -/
theorem C49_no_signal {leave pre : Bool} {body : List Op} {n : Nat} {s : St} (r : Run leave pre body n s) (ok : Bool) (he : s.main = .exited ok)
    (hs : s.signalled = false) (hl : leave = false) : s.dir = false := by
  have h := r.inv
  cases hd : s.dir with
  | false => rfl
  | true =>
    rcases h.removed (h.exited ok he) hd with h' | h'
    · rw [hl] at h'; cases h'
    · have := h.recreated h'; rw [hs] at this; cases this

/-- **C49, partial.** In every run, also with signals, the directory is left behind at the end of the command only if the build created a directory after the signal goroutine had removed it. -/
theorem C49_left_only_if_recreated_partial {leave pre : Bool} {body : List Op} {n : Nat} {s : St} (r : Run leave pre body n s) (ok : Bool) (he : s.main = .exited ok)
    (hl : leave = false) (hd : s.dir = true) : s.recreated = true ∧ s.signalled = true := by
  have h := r.inv
  rcases h.removed (h.exited ok he) hd with h' | h'
  · rw [hl] at h'; cases h'
  · exact ⟨h', h.recreated h'⟩

/-- Every check is in `completePlugin`. -/
def Returns (body : List Op) : Prop := ∀ a r, body = a ++ .check :: r → .ret ∈ r

theorem Returns.of {p q : List Op} (hq : .check ∉ q) : Returns (p ++ .ret :: q) := by
  intro a r he
  rcases List.append_eq_append_iff.mp he with ⟨b, rfl, h2⟩ | ⟨b, rfl, h2⟩
  · cases b with
    | nil => simp at h2
    | cons o b =>
      simp only [List.cons_append, List.cons.injEq] at h2
      rw [h2.2] at hq; simp at hq
  · cases b with
    | nil => simp at h2
    | cons o b =>
      simp only [List.cons_append, List.cons.injEq] at h2
      rw [h2.2]; simp

theorem dynamicBody_eq (dirs packages live : Nat) (goBuild : Bool) :
    ∃ p, dynamicBody dirs packages live goBuild = p ++ .ret :: (if goBuild then [.build] else []) := by
  refine ⟨.other :: List.replicate (dirs + 1) .mkdir ++ [.copy] ++ ([.chdir, .other] ++ checked packages .other ++ [] ++ [.mkdir, .write, .write] ++ checked live .write ++ []), ?_⟩
  simp only [dynamicBody, completePlugin, List.append_assoc, List.cons_append, List.nil_append]

theorem staticBody_eq (packages live : Nat) : ∃ p, staticBody packages live = p ++ .ret :: [] :=
  ⟨_, rfl⟩

theorem returns_dynamic (dirs packages live : Nat) (goBuild : Bool) : Returns (dynamicBody dirs packages live goBuild) := by
  obtain ⟨p, hp⟩ := dynamicBody_eq dirs packages live goBuild
  rw [hp]
  apply Returns.of
  cases goBuild <;> decide

theorem returns_static (packages live : Nat) : Returns (staticBody packages live) := by
  obtain ⟨p, hp⟩ := staticBody_eq packages live
  rw [hp]
  exact Returns.of (by decide)

theorem returns_clean : Returns cleanBody := by
  intro a r he
  cases a with
  | nil => simp [cleanBody] at he
  | cons o a => cases a <;> simp [cleanBody] at he

/-- Without an operation that makes directories there is a directory only if there was one. -/
theorem Run.no_mkdir {leave pre : Bool} {body : List Op} (hb : .mkdir ∉ body) {n : Nat} {s : St} (r : Run leave pre body n s) :
    (s.dir = true → pre = true) ∧ ∀ l, s.main = .work l → .mkdir ∉ l := by
  induction r with
  | init => exact ⟨id, fun l h => by cases h; exact hb⟩
  | step _ st ih =>
    obtain ⟨h1, h2⟩ := ih
    cases st with
    | mkdir h => exact absurd (List.mem_cons_self ..) (h2 _ h)
    | inDir h _ _ => exact ⟨h1, fun l hl => by cases hl; exact fun hm => h2 _ h (List.mem_cons_of_mem _ hm)⟩
    | other h _ => exact ⟨h1, fun l hl => by cases hl; exact fun hm => h2 _ h (List.mem_cons_of_mem _ hm)⟩
    | pass h _ => exact ⟨h1, fun l hl => by cases hl; exact fun hm => h2 _ h (List.mem_cons_of_mem _ hm)⟩
    | cut h _ _ => exact ⟨h1, fun l hl => by cases hl; exact fun hm => h2 _ h (List.mem_append_right _ hm)⟩
    | cutCopy h _ => exact ⟨h1, fun l hl => by cases hl; exact fun hm => h2 _ h (List.mem_cons_of_mem _ hm)⟩
    | remove _ _ => exact ⟨fun h => h1 (by revert h; simp only [Bool.and_eq_true]; exact fun h => h.1), h2⟩
    | panic _ _ _ => exact ⟨h1, fun l hl => by cases hl⟩
    | crash _ => exact ⟨h1, fun l hl => by cases hl⟩
    | finish _ => exact ⟨h1, fun l hl => by cases hl⟩
    | quit _ => exact ⟨h1, fun l hl => by cases hl⟩
    | exit _ _ => exact ⟨h1, fun l hl => by cases hl⟩
    | receive _ _ _ => exact ⟨h1, h2⟩
    | reset _ _ => exact ⟨h1, h2⟩
  | env _ e ih =>
    obtain ⟨h1, h2⟩ := ih
    cases e with
    | notify _ _ _ => exact ⟨h1, h2⟩
    | kill _ _ => exact ⟨h1, fun l hl => by cases hl⟩

/-- **C49.** The command with `--clean` never makes a directory, whatever signals arrive. -/
theorem C49_clean_makes_none {leave : Bool} {n : Nat} {s : St} (r : Run leave false cleanBody n s) : s.dir = false := by
  have h := (r.no_mkdir (by decide)).1
  cases hd : s.dir with
  | false => rfl
  | true => exact absurd (h hd) (by decide)

/-- **C49.** The command always comes to its end: as long as the process lives it can take a step, … -/
theorem C49_never_blocks {leave pre : Bool} {body : List Op} (hb : Returns body) {n : Nat} {s : St} (r : Run leave pre body n s) (ha : s.alive) : ∃ t, Step leave s t := by
  have h := r.inv
  cases hm : s.main with
  | work l =>
    cases l with
    | nil => exact ⟨_, .finish hm⟩
    | cons o l =>
      by_cases hc : o = .check
      · subst hc
        cases hi : s.interrupt with
        | false => exact ⟨_, .pass hm hi⟩
        | true =>
          obtain ⟨a, he⟩ := h.suffix _ hm
          obtain ⟨b, r', rfl, hr⟩ := List.eq_append_cons_of_mem (hb a l he.symm)
          exact ⟨_, .cut hm hr hi⟩
      · by_cases hr : o = .ret
        · exact ⟨_, .other hm (.inr hr)⟩
        · exact ⟨_, .panic hm hc hr⟩
  | deferred ok => exact ⟨_, .quit hm⟩
  | waiting ok =>
    cases hw : s.watch with
    | waiting =>
      cases hb : s.buf with
      | none => exact absurd hb (h.woken ok hm hw)
      | some x => exact ⟨_, .receive ha hw hb⟩
    | received x => exact ⟨_, .reset ha hw⟩
    | removing => exact ⟨_, .remove ha hw⟩
    | done => exact ⟨_, .exit hm hw⟩
  | exited ok => exact absurd hm (ha.2 ok)
  | killed => exact absurd hm ha.1

def mainWeight : Main → Nat
  | .work r => r.length + 3
  | .deferred _ => 2
  | .waiting _ => 1
  | .exited _ => 0
  | .killed => 0

def watchWeight : Watch → Nat
  | .waiting => 3
  | .received _ => 2
  | .removing => 1
  | .done => 0

/-- … and it takes at most six steps more than it has operations. -/
theorem C49_ends {leave pre : Bool} {body : List Op} {n : Nat} {s : St} (r : Run leave pre body n s) : n ≤ body.length + 6 := by
  suffices h : n + (mainWeight s.main + watchWeight s.watch) ≤ body.length + 6 by omega
  induction r with
  | init => simp [St.init, mainWeight, watchWeight]
  | @step n s t _ st ih =>
    have : mainWeight t.main + watchWeight t.watch < mainWeight s.main + watchWeight s.watch := by
      cases st with
      | mkdir hm => simp [hm, mainWeight]
      | inDir hm => simp [hm, mainWeight]
      | other hm => simp [hm, mainWeight]
      | pass hm => simp [hm, mainWeight]
      | cut hm => simp [hm, mainWeight]; omega
      | cutCopy hm => simp [hm, mainWeight]
      | panic hm => simp [hm, mainWeight]
      | crash hm => simp [hm, mainWeight]
      | finish hm => simp [hm, mainWeight]
      | quit hm => simp [hm, mainWeight]
      | exit hm hw => simp [hm, mainWeight]
      | receive ha hw hb => simp [hw, watchWeight]
      | reset ha hw => simp [hw, watchWeight]
      | remove ha hw => simp [hw, watchWeight]
    omega
  | @env n s t _ st ih =>
    have : mainWeight t.main + watchWeight t.watch ≤ mainWeight s.main + watchWeight s.watch := by
      cases st with
      | notify ha hx hr => exact Nat.le_refl _
      | kill ha hr => simp [mainWeight]
    omega

theorem alive_work {s : St} {r : List Op} (h : s.main = .work r) : s.alive := by
  constructor
  · rw [h]; intro e; cases e
  · intro ok; rw [h]; intro e; cases e

theorem alive_waiting {s : St} {ok : Bool} (h : s.main = .waiting ok) : s.alive := by
  constructor
  · rw [h]; intro e; cases e
  · intro ok; rw [h]; intro e; cases e

/-! ### C56: which operations may have been done when the exit code is 0 -/

theorem Outcome.of_interrupt {i : Bool} {r c : List Op} (h : Outcome true r c) : Outcome i r c := by
  cases i with
  | true => exact h
  | false => exact h.mono

structure Acc (body : List Op) (s : St) : Prop where
  work : ∀ r c, s.main = .work r → Outcome s.interrupt r c → Outcome false body (s.completed ++ c)
  over : (s.main = .deferred true ∨ s.main = .waiting true ∨ s.main = .exited true) → Outcome false body s.completed

theorem Acc.step {leave : Bool} {body : List Op} {s t : St} (h : Acc body s) (st : Step leave s t) : Acc body t := by
  obtain ⟨h1, h2⟩ := h
  have next : ∀ {s : St} {o : Op} {r : List Op}, (∀ r c, s.main = .work r → Outcome s.interrupt r c → Outcome false body (s.completed ++ c)) → s.main = .work (o :: r) →
      (o = .check → s.interrupt = false) → ∀ r' c, Main.work r = .work r' → Outcome s.interrupt r' c → Outcome false body ((s.completed ++ [o]) ++ c) := by
    intro s o r h hm hi r' c he hc
    injection he with he
    subst he
    have := h _ (o :: c) hm (.done hi hc)
    simpa using this
  cases st with
  | mkdir hm => exact ⟨next h1 hm (by intro e; cases e), by rintro (h | h | h) <;> cases h⟩
  | inDir hm ho hd =>
    refine ⟨next h1 hm ?_, by rintro (h | h | h) <;> cases h⟩
    rintro rfl; cases ho
  | other hm ho =>
    refine ⟨next h1 hm ?_, by rintro (h | h | h) <;> cases h⟩
    rintro rfl; rcases ho with ho | ho <;> cases ho
  | pass hm hi => exact ⟨next h1 hm fun _ => hi, by rintro (h | h | h) <;> cases h⟩
  | cut hm ha hi =>
    refine ⟨?_, by rintro (h | h | h) <;> cases h⟩
    intro r' c he hc
    injection he with he
    subst he
    refine h1 _ c hm (.cut ha ?_)
    change Outcome true _ _
    rw [← hi]; exact hc
  | cutCopy hm hi =>
    refine ⟨?_, by rintro (h | h | h) <;> cases h⟩
    intro r' c he hc
    injection he with he
    subst he
    refine h1 _ c hm (.noCopy ?_)
    rw [← hi]; exact hc
  | panic hm => exact ⟨fun r c he => (by cases he), by rintro (h | h | h) <;> cases h⟩
  | crash hm => exact ⟨fun r c he => (by cases he), by rintro (h | h | h) <;> cases h⟩
  | finish hm =>
    refine ⟨fun r c he => (by cases he), fun _ => ?_⟩
    have := h1 _ [] hm .nil
    simpa using this
  | @quit ok hm =>
    refine ⟨fun r c he => (by cases he), ?_⟩
    rintro (h | h | h)
    · cases h
    · injection h with h; subst h; exact h2 (.inl hm)
    · cases h
  | @exit ok hm hw =>
    refine ⟨fun r c he => (by cases he), ?_⟩
    rintro (h | h | h)
    · cases h
    · cases h
    · injection h with h; subst h; exact h2 (.inr (.inl hm))
  | receive => exact ⟨h1, h2⟩
  | @reset x ha hw =>
    refine ⟨?_, h2⟩
    intro r c he hc
    apply h1 r c he
    change Outcome (s.interrupt || x == .int) r c at hc
    cases hi : s.interrupt with
    | true => rw [hi] at hc; exact hc
    | false => exact hc.mono
  | remove => exact ⟨h1, h2⟩

theorem Run.acc {leave pre : Bool} {body : List Op} {n : Nat} {s : St} (r : Run leave pre body n s) : Acc body s := by
  induction r with
  | init =>
    refine ⟨?_, by rintro (h | h | h) <;> cases h⟩
    intro r c he hc
    injection he with he
    subst he
    exact hc
  | step _ st ih => exact ih.step st
  | env _ st ih =>
    cases st with
    | notify ha hx hr => exact ⟨ih.work, ih.over⟩
    | kill ha hr => exact ⟨fun r c he => (by cases he), by rintro (h | h | h) <;> cases h⟩

/-! ### Every outcome is possible -/

/-- The operations can be done one after the other: the directory exists before it is needed. -/
def ready : Bool → List Op → Bool
  | true, _ => true
  | false, [] => true
  | false, .mkdir :: _ => true
  | false, .other :: r => ready false r
  | false, _ => false

theorem ready_next {d : Bool} {o : Op} {r : List Op} (h : ready d (o :: r) = true) : ready (d || o == .mkdir) r = true := by
  have ht : ready true r = true := by cases r <;> rfl
  cases d with
  | true => exact ht
  | false => cases o <;> first | exact h | exact ht | cases h

/-- The operation succeeds. -/
theorem Step.ok {leave : Bool} {s : St} {o : Op} {r : List Op} (hm : s.main = .work (o :: r)) (hd : o.needsDir = true → s.dir = true) (hc : o = .check → s.interrupt = false) :
    ∃ t, Step leave s t ∧ t = { s with main := .work r, dir := s.dir || o == .mkdir, recreated := s.recreated || (o == .mkdir && s.watch == .done), completed := s.completed ++ [o] } := by
  cases o with
  | mkdir => exact ⟨_, .mkdir hm, by simp⟩
  | write => exact ⟨_, .inDir hm rfl (hd rfl), by simp⟩
  | copy => exact ⟨_, .inDir hm rfl (hd rfl), by simp⟩
  | chdir => exact ⟨_, .inDir hm rfl (hd rfl), by simp⟩
  | build => exact ⟨_, .inDir hm rfl (hd rfl), by simp⟩
  | check => exact ⟨_, .pass hm (hc rfl), by simp⟩
  | ret => exact ⟨_, .other hm (.inr rfl), by simp⟩
  | other => exact ⟨_, .other hm (.inl rfl), by simp⟩

theorem Run.realise_interrupted {leave pre : Bool} {body r c : List Op} {i : Bool} (h : Outcome i r c) (hi : i = true) : ∀ {n : Nat} {s : St}, Run leave pre body n s → s.main = .work r → s.dir = true → s.interrupt = true →
    s.watch = .removing → ∃ m t, Run leave pre body m t ∧ t.main = .work [] ∧ t.watch = .removing ∧ t.completed = s.completed ++ c ∧ t.recreated = s.recreated := by
  induction h with
  | nil => intro n s hr hm _ _ hw; exact ⟨n, s, hr, hm, hw, by simp, rfl⟩
  | @done i o r c hc _ ih =>
    intro n s hr hm hd hs hw
    obtain ⟨t, st, rfl⟩ := Step.ok (leave := leave) hm (fun _ => hd) (fun e => by have := hc e; rw [hi] at this; cases this)
    obtain ⟨m, u, hu, h1, h2, h3, h4⟩ := ih hi (hr.step st) rfl (by simp [hd]) hs hw
    exact ⟨m, u, hu, h1, h2, by rw [h3]; simp, by rw [h4]; simp [hw]⟩
  | noCopy _ ih =>
    intro n s hr hm hd hs hw
    have r1 := hr.step (.cutCopy hm hs)
    obtain ⟨m, u, hu, h⟩ := ih rfl r1 rfl hd hs hw
    exact ⟨m, u, hu, h⟩
  | cut ha _ ih =>
    intro n s hr hm hd hs hw
    have r1 := hr.step (.cut hm ha hs)
    obtain ⟨m, u, hu, h⟩ := ih rfl r1 rfl hd hs hw
    exact ⟨m, u, hu, h⟩

/-- SIGINT arrives and is handled, up to the removal of the directory. -/
theorem Run.interrupt {leave pre : Bool} {body r : List Op} {n : Nat} {s : St} (hr : Run leave pre body n s) (hm : s.main = .work r) (hw : s.watch = .waiting) (hb : s.buf = none) (hs : s.reset = false) :
    ∃ m, Run leave pre body m { s with watch := .removing, buf := none, reset := true, interrupt := true, signalled := true } := by
  have r1 := hr.env (.notify (x := .int) (alive_work hm) (by decide) hs)
  have r2 := r1.step (.receive (x := .int) (alive_work hm) hw (by rw [hb]; rfl))
  have r3 := r2.step (.reset (x := .int) (alive_work hm) rfl)
  exact ⟨_, by simpa using r3⟩

theorem Run.realise {leave pre : Bool} {body r c : List Op} {i : Bool} (h : Outcome i r c) (hi : i = false) : ∀ {n : Nat} {s : St}, Run leave pre body n s → s.main = .work r → ready s.dir r = true → s.interrupt = false →
    s.watch = .waiting → s.buf = none → s.reset = false →
    ∃ m t, Run leave pre body m t ∧ t.main = .work [] ∧ ((t.watch = .waiting ∧ t.buf = none) ∨ t.watch = .removing) ∧ t.completed = s.completed ++ c ∧ t.recreated = s.recreated := by
  induction h with
  | nil => intro n s hr hm _ _ hw hb _; exact ⟨n, s, hr, hm, .inl ⟨hw, hb⟩, by simp, rfl⟩
  | @done i o r c hc _ ih =>
    intro n s hr hm hd hs hw hb hx
    have hd' : o.needsDir = true → s.dir = true := by
      intro ho
      cases hdir : s.dir with
      | true => rfl
      | false => rw [hdir] at hd; cases o <;> simp [ready] at hd <;> cases ho
    obtain ⟨t, st, rfl⟩ := Step.ok (leave := leave) hm hd' (fun _ => hs)
    obtain ⟨m, u, hu, h1, h2, h3, h4⟩ := ih hi (hr.step st) rfl (ready_next hd) hs hw hb hx
    exact ⟨m, u, hu, h1, h2, by rw [h3]; simp, by rw [h4]; simp [hw]⟩
  | @noCopy _ r c h ih =>
    intro n s hr hm hd hs hw hb hx
    obtain ⟨m, r1⟩ := hr.interrupt hm hw hb hx
    have hdir : s.dir = true := by
      cases hdir : s.dir with
      | true => rfl
      | false => rw [hdir] at hd; simp [ready] at hd
    obtain ⟨m, t, ht, h1, h2, h3, h4⟩ := Run.realise_interrupted (Outcome.noCopy (i := true) h) rfl r1 hm hdir rfl rfl
    exact ⟨m, t, ht, h1, .inr h2, h3, h4⟩
  | @cut _ a r c ha h ih =>
    intro n s hr hm hd hs hw hb hx
    obtain ⟨m, r1⟩ := hr.interrupt hm hw hb hx
    have hdir : s.dir = true := by
      cases hdir : s.dir with
      | true => rfl
      | false => rw [hdir] at hd; simp [ready] at hd
    obtain ⟨m, t, ht, h1, h2, h3, h4⟩ := Run.realise_interrupted (Outcome.cut (i := true) ha h) rfl r1 hm hdir rfl rfl
    exact ⟨m, t, ht, h1, .inr h2, h3, h4⟩

/-- From the end of the work to the end of the process. -/
theorem Run.leave {leave pre : Bool} {body : List Op} {n : Nat} {s : St} (hr : Run leave pre body n s) (hm : s.main = .work [])
    (hw : (s.watch = .waiting ∧ s.buf = none) ∨ s.watch = .removing ∨ s.watch = .done) :
    ∃ m t, Run leave pre body m t ∧ t.main = .exited true ∧ t.completed = s.completed ∧ t.dir = (s.dir && (leave || s.watch == .done)) := by
  have r1 := hr.step (.finish hm)
  have r2 := r1.step (.quit rfl)
  rcases hw with ⟨hw, hb⟩ | hw | hw
  · have r3 := r2.step (.receive (x := .quit) (alive_waiting rfl) hw (by rw [hb]; rfl))
    have r4 := r3.step (.reset (x := .quit) (alive_waiting rfl) rfl)
    have r5 := r4.step (.remove (alive_waiting rfl) rfl)
    exact ⟨_, _, r5.step (.exit rfl rfl), rfl, rfl, by rw [hw]; cases leave <;> rfl⟩
  · have r5 := r2.step (.remove (alive_waiting rfl) hw)
    exact ⟨_, _, r5.step (.exit rfl rfl), rfl, rfl, by rw [hw]; cases leave <;> rfl⟩
  · exact ⟨_, _, r2.step (.exit rfl hw), rfl, rfl, by simp [hw]⟩

/-- **C56.** Exactly which operations may have been completed when the command ends with exit code 0, over all interleavings with signals. -/
theorem C56_exact {leave pre : Bool} {body : List Op} (hb : ready pre body = true) (c : List Op) :
    (∃ n s, Run leave pre body n s ∧ s.main = .exited true ∧ s.completed = c) ↔ Outcome false body c := by
  constructor
  · rintro ⟨n, s, hr, hm, rfl⟩
    exact hr.acc.over (.inr (.inr hm))
  · intro h
    obtain ⟨m, t, ht, h1, h2, h3, h4⟩ := Run.realise (leave := leave) (pre := pre) h rfl (.init : Run leave pre body 0 _) rfl hb rfl rfl rfl rfl
    obtain ⟨m, u, hu, h5, h6, _⟩ := ht.leave h1 (h2.elim .inl (.inr ∘ .inl))
    exact ⟨m, u, hu, h5, by rw [h6, h3]; rfl⟩

theorem ready_dynamic (dirs packages live : Nat) (goBuild : Bool) : ready false (dynamicBody dirs packages live goBuild) = true := rfl

theorem ready_static (packages live : Nat) : ready true (staticBody packages live) = true := rfl

/-- **C56, partial.** Without SIGINT the exit code tells the truth: it is 0 only if every operation of the build was completed, in order. -/
theorem C56_success_is_complete_partial {leave pre : Bool} {body : List Op} {n : Nat} {s : St} (r : Run leave pre body n s) (he : s.main = .exited true) (hi : s.interrupt = false) :
    s.completed = body := r.inv.complete (.inr (.inr he)) hi

/-- **C56.** A dynamic build with exit code 0 has run `go build` with success, whatever signals arrived. -/
theorem C56_plugin_built {leave pre : Bool} {dirs packages live n : Nat} {s : St} (r : Run leave pre (dynamicBody dirs packages live true) n s) (he : s.main = .exited true) :
    s.completed.getLast? = some .build := by
  obtain ⟨p, hp⟩ := dynamicBody_eq dirs packages live true
  obtain ⟨p', h⟩ := (r.acc.over (.inr (.inr he))).tail hp (by decide)
  rw [h]; simp

theorem checked_succ (n : Nat) (o : Op) : checked (n + 1) o = .check :: o :: checked n o := rfl

theorem checked_add (m n : Nat) (o : Op) : checked (m + n) o = checked m o ++ checked n o := by
  induction m with
  | zero => simp [checked]
  | succ m ih => rw [Nat.succ_add, checked_succ, ih]; rfl

theorem ret_checked (n : Nat) {o : Op} (h : o ≠ .ret) : Op.ret ∉ checked n o := by
  induction n with
  | zero => simp [checked]
  | succ n ih => rw [checked_succ]; simp [ih, Ne.symm h]

theorem Outcome.prefix {r c : List Op} (p : List Op) (h : Outcome false r c) : Outcome false (p ++ r) (p ++ c) := by
  induction p with
  | nil => exact h
  | cons o p ih => exact .done (fun _ => rfl) ih

/-- **C56, violated.** A dynamic build that is interrupted while it generates the files of the packages: for every `k` smaller than their number the command may have written only `k` of them, have built
the plugin from that, and end with exit code 0. -/
theorem C56_violated_incomplete_plugin (dirs packages live k : Nat) (hk : k < live) :
    ∃ n s, Run false false (dynamicBody dirs packages live true) n s ∧ s.main = .exited true ∧
      s.completed = dynamicBody dirs packages k true := by
  refine (C56_exact (ready_dynamic dirs packages live true) _).mpr ?_
  obtain ⟨d, rfl⟩ := Nat.exists_eq_add_of_lt hk
  have he : ∀ l, dynamicBody dirs packages l true = (.other :: List.replicate (dirs + 1) .mkdir ++ [.copy] ++ ([.chdir, .other] ++ checked packages .other ++ [.mkdir, .write, .write])) ++ (checked l .write ++ [.ret, .build]) := by
    intro l; simp [dynamicBody, completePlugin]
  rw [he, he]
  refine Outcome.prefix _ ?_
  rw [Nat.add_assoc, checked_add, List.append_assoc]
  refine Outcome.prefix _ ?_
  rw [checked_succ]
  refine Outcome.cut (a := .write :: checked d .write) ?_ (.done (by decide) (.done (by decide) .nil))
  simp [ret_checked]

/-- **C56, violated.** A static build that is interrupted before it has read the first package ends with exit code 0 and has generated nothing. -/
theorem C56_violated_interrupted_success (packages live : Nat) :
    ∃ n s, Run true true (staticBody (packages + 1) live) n s ∧ s.main = .exited true ∧ s.completed = [.chdir, .other, .ret] := by
  refine (C56_exact (ready_static (packages + 1) live) _).mpr ?_
  have he : staticBody (packages + 1) live = [.chdir, .other] ++ (.check :: (.other :: checked packages .other ++ [.other] ++ [.mkdir, .write, .write] ++ checked live .write ++ [.other, .other]) ++ .ret :: []) := by
    simp [staticBody, completePlugin, checked_succ]
  rw [he]
  refine Outcome.prefix [.chdir, .other] (Outcome.cut ?_ (.done (by decide) .nil))
  simp [ret_checked]

/-- **C56, violated.** A static build that is interrupted while it generates the files of the packages has removed the old files, has written only some of the new ones and not registered the plugin, and ends with exit code 0. -/
theorem C56_violated_interrupted_static (packages live k : Nat) (hk : k < live) :
    ∃ n s, Run true true (staticBody packages live) n s ∧ s.main = .exited true ∧
      s.completed = completePlugin packages k [.other] [] := by
  refine (C56_exact (ready_static packages live) _).mpr ?_
  obtain ⟨d, rfl⟩ := Nat.exists_eq_add_of_lt hk
  have he : ∀ l e, completePlugin packages l [.other] e = ([.chdir, .other] ++ checked packages .other ++ [.other] ++ [.mkdir, .write, .write]) ++ (checked l .write ++ (e ++ [.ret])) := by
    intro l e; simp [completePlugin]
  rw [staticBody, he, he]
  refine Outcome.prefix _ ?_
  rw [Nat.add_assoc, checked_add, List.append_assoc]
  refine Outcome.prefix _ ?_
  rw [checked_succ]
  have hc := Outcome.cut (i := false) (a := .write :: checked d .write ++ [.other, .other]) (r := []) (c := [.ret]) (by simp [ret_checked]) (.done (by decide) .nil)
  simpa using hc

/-! ### C49: the directory may stay -/

/-- All operations are done although the signal goroutine is through. -/
theorem Run.ignore {leave pre : Bool} {body : List Op} : ∀ (r : List Op) {n : Nat} {s : St}, Run leave pre body n s → s.main = .work r → ready s.dir r = true → s.interrupt = false → s.watch = .done →
    ∃ m t, Run leave pre body m t ∧ t.main = .work [] ∧ t.watch = .done ∧ t.completed = s.completed ++ r ∧ t.dir = (s.dir || r.contains .mkdir)
  | [], n, s, hr, hm, _, _, hw => ⟨n, s, hr, hm, hw, by simp, by simp⟩
  | o :: r, n, s, hr, hm, hd, hi, hw => by
    have hd' : o.needsDir = true → s.dir = true := by
      intro ho
      cases hdir : s.dir with
      | true => rfl
      | false => rw [hdir] at hd; cases o <;> simp [ready] at hd <;> cases ho
    obtain ⟨t, st, rfl⟩ := Step.ok (leave := leave) hm hd' (fun _ => hi)
    obtain ⟨m, u, hu, h1, h2, h3, h4⟩ := Run.ignore r (hr.step st) rfl (ready_next hd) hi hw
    refine ⟨m, u, hu, h1, h2, by rw [h3]; simp, ?_⟩
    rw [h4, List.contains_cons, ← Bool.or_assoc]
    cases o <;> rfl

/-- **C49, violated.** Any dynamic build that receives SIGTERM early: the signal goroutine removes the temporary directory, the build goes on, creates it again, does all of its work and ends with success; the
directory is left behind. -/
theorem C49_violated_sigterm (dirs packages live : Nat) (goBuild : Bool) :
    ∃ n s, Run false false (dynamicBody dirs packages live goBuild) n s ∧ s.main = .exited true ∧ s.completed = dynamicBody dirs packages live goBuild ∧ s.dir = true := by
  have r0 : Run false false (dynamicBody dirs packages live goBuild) 0 _ := .init
  have r1 := r0.env (.notify (x := .term) (alive_work rfl) (by decide) rfl)
  have r2 := r1.step (.receive (alive_work rfl) rfl rfl)
  have r3 := r2.step (.reset (alive_work rfl) rfl)
  have r4 := r3.step (.remove (alive_work rfl) rfl)
  obtain ⟨m, t, ht, h1, h2, h3, h4⟩ := Run.ignore _ r4 rfl (ready_dynamic dirs packages live goBuild) rfl rfl
  obtain ⟨m, u, hu, h5, h6, h7⟩ := ht.leave h1 (.inr (.inr h2))
  refine ⟨m, u, hu, h5, by rw [h6, h3]; rfl, ?_⟩
  rw [h7, h4, h2]
  simp [dynamicBody, List.replicate_succ]

/-- Making directories needs nothing. -/
theorem Run.mkdirs {leave pre : Bool} {body : List Op} (r : List Op) : ∀ (k : Nat) {n : Nat} {s : St}, Run leave pre body n s → s.main = .work (List.replicate k .mkdir ++ r) →
    ∃ m t, Run leave pre body m t ∧ t.main = .work r ∧ t.signalled = s.signalled ∧ t.dir = (s.dir || k != 0)
  | 0, n, s, hr, hm => ⟨n, s, hr, hm, rfl, by simp⟩
  | k + 1, n, s, hr, hm => by
    have r1 := hr.step (.mkdir hm)
    obtain ⟨m, t, ht, h1, h2, h3⟩ := Run.mkdirs r k r1 rfl
    exact ⟨m, t, ht, h1, h2, by rw [h3]; simp⟩

/-- **C49, violated.** A crash of the copying workers (C43) leaves the directory behind without any signal. -/
theorem C49_violated_crash (dirs packages live : Nat) (goBuild : Bool) :
    ∃ n s, Run false false (dynamicBody dirs packages live goBuild) n s ∧ s.main = .killed ∧ s.signalled = false ∧ s.dir = true := by
  have r0 : Run false false (dynamicBody dirs packages live goBuild) 0 _ := .init
  have r1 := r0.step (.other (o := .other) rfl (.inl rfl))
  obtain ⟨m, t, ht, h1, h2, h3⟩ := Run.mkdirs (.copy :: (completePlugin packages live [] [] ++ (if goBuild then [.build] else []))) (dirs + 1) r1 (by
    simp [St.init, dynamicBody])
  exact ⟨_, _, ht.step (.crash h1), rfl, h2, by rw [h3]; simp⟩

/-- The runs in which `k` signals have been sent so far. -/
inductive RunSig (leave pre : Bool) (body : List Op) : Nat → St → Prop
  | init : RunSig leave pre body 0 (St.init pre body)
  | step {k : Nat} {s t : St} : RunSig leave pre body k s → Step leave s t → RunSig leave pre body k t
  | env {k : Nat} {s t : St} : RunSig leave pre body k s → Env s t → RunSig leave pre body (k + 1) t

/-- They are the runs. -/
theorem RunSig.run {leave pre : Bool} {body : List Op} {s : St} : (∃ n, Run leave pre body n s) ↔ ∃ k, RunSig leave pre body k s := by
  constructor
  · rintro ⟨n, r⟩
    induction r with
    | init => exact ⟨0, .init⟩
    | step _ st ih => obtain ⟨k, r⟩ := ih; exact ⟨k, r.step st⟩
    | env _ st ih => obtain ⟨k, r⟩ := ih; exact ⟨k + 1, r.env st⟩
  · rintro ⟨k, r⟩
    induction r with
    | init => exact ⟨0, .init⟩
    | step _ st ih => obtain ⟨n, r⟩ := ih; exact ⟨n + 1, r.step st⟩
    | env _ st ih => obtain ⟨n, r⟩ := ih; exact ⟨n, r.env st⟩

/-- `signal.Reset` is called, and something is handled or waits to be handled, only after a signal, or when the command itself has come to its end. -/
theorem RunSig.inv {leave pre : Bool} {body : List Op} {k : Nat} {s : St} (r : RunSig leave pre body k s) (hk : k = 0) :
    (s.buf = none ∨ s.buf = some .quit) ∧ ((∃ l, s.main = .work l) ∨ (∃ b, s.main = .deferred b) → s.buf = none ∧ s.watch = .waiting ∧ s.reset = false) := by
  induction r with
  | init => exact ⟨.inl rfl, fun _ => ⟨rfl, rfl, rfl⟩⟩
  | env _ _ _ => cases hk
  | @step k s t _ st ih =>
    obtain ⟨h1, h2⟩ := ih hk
    obtain ⟨main, watch, buf, reset, interrupt, dir, signalled, recreated, completed⟩ := s
    cases st <;> simp_all

/-- **C49.** The first SIGINT or SIGTERM does not kill the command while it works or begins to end: it goes on, and the signal is handed to its handler. -/
theorem C49_first_signal {leave pre : Bool} {body : List Op} {s t : St} (r : RunSig leave pre body 0 s) (hm : (∃ l, s.main = .work l) ∨ ∃ b, s.main = .deferred b) (e : Env s t) :
    t.main = s.main ∧ t.dir = s.dir ∧ (t.buf = some .int ∨ t.buf = some .term) ∧ t.watch = .waiting := by
  obtain ⟨h1, h2, h3⟩ := (r.inv rfl).2 hm
  cases e with
  | @notify x _ hx _ =>
    refine ⟨rfl, rfl, ?_, h2⟩
    change some (s.buf.getD x) = _ ∨ some (s.buf.getD x) = _
    rw [h1]
    cases x with
    | int => exact .inl rfl
    | term => exact .inr rfl
    | quit => exact absurd rfl hx
  | kill _ hr => rw [h3] at hr; cases hr

/-- **C49.** Only a signal that comes after `signal.Reset`, i.e. after an earlier one has been taken or the command has ended its work, kills the process; and then it always does ("Press Ctrl-C again to terminate the program
immediately"). -/
theorem C49_second_signal {s : St} (ha : s.alive) (hr : s.reset = true) : (∃ t, Env s t) ∧ ∀ t, Env s t → t.main = .killed :=
  ⟨⟨_, .kill ha hr⟩, fun t e => by
    cases e with
    | notify _ _ h => rw [hr] at h; cases h
    | kill _ _ => rfl⟩

/-! ### Examples -/

/-- A build without signals. -/
example : ∃ n s, Run false false (dynamicBody 0 1 1 true) n s ∧ s.main = .exited true ∧ s.completed = dynamicBody 0 1 1 true :=
  (C56_exact rfl _).mpr (Outcome.all _)

/-- After a signal has been taken: the hypotheses of `C49_second_signal` are met by a run. -/
example : ∃ n s, Run false false (dynamicBody 0 1 1 true) n s ∧ s.alive ∧ s.reset = true := by
  have r0 : Run false false (dynamicBody 0 1 1 true) 0 _ := .init
  obtain ⟨m, r⟩ := r0.interrupt rfl rfl rfl rfl
  exact ⟨m, _, r, alive_work rfl, rfl⟩

/-- An outcome that is not possible: the rest of the work is done, but not the `go build`. -/
example : ¬ ∃ n s, Run false false (dynamicBody 0 1 1 true) n s ∧ s.main = .exited true ∧ s.completed = dynamicBody 0 1 1 false := by
  rintro ⟨n, s, hr, he, hc⟩
  have := C56_plugin_built hr he
  rw [hc] at this
  revert this; decide

end Hotswap.Cli.Exec
