import Verif.Proofs.Views
import Verif.Proofs.Sched

/-! Identities of managers and times of events. -/

namespace Hotswap

variable [GoRuntime]

/-- A published manager has the identity that was next when its call began. -/
theorem View.published_mid {cfg : Config} {env : Env} {k : Kind} {old : Option Manager} {n0 : Nat} {p : Plan} (h : View cfg env k old n0 p) (hk : refused cfg k = false) :
    publishes p.acts = [] ∨ ∃ pm, publishes p.acts = [pm] ∧ pm.mid = n0 ∧ n0 < p.next := by
  by_cases hr : ∃ d, p.res = .ok d
  · obtain ⟨d, hr⟩ := hr
    rcases h.success hk hr with ⟨ha, _⟩ | ⟨⟨s0, s1, s, hs⟩, hpub⟩
    · left; rw [ha]; cases k <;> rfl
    · right
      refine ⟨p.built, hpub, ?_, ?_⟩
      · rw [hs.built, hs.fin.frame.mid, hs.pm]; exact hs.cr.mid
      · rw [hs.next]; exact hs.lo
  · left
    have := (h.shape hk).of_failed (fun d hd => hr ⟨d, hd⟩)
    exact publishes_nil (fun a ha pm e => this.1 pm (e ▸ ha))

/-- Identities of the managers published so far and of the one that the running call will publish. -/
structure MidInv (m : Machine) : Prop where
  lt : ∀ pm ∈ published m.trace, pm.mid < m.next
  incr : (published m.trace).Pairwise (fun a b => a.mid < b.mid)
  run : ∀ r, m.running = some r → publishes r.todo = [] ∨
    ∃ new, publishes r.todo = [new] ∧ new.mid < m.next ∧ ∀ pm ∈ published m.trace, pm.mid < new.mid

theorem MidInv.same {m m' : Machine} (h : MidInv m) (ht : published m'.trace = published m.trace) (hn : m.next = m'.next)
    (hr : ∀ r', m'.running = some r' → ∃ r, m.running = some r ∧ publishes r'.todo = publishes r.todo) : MidInv m' := by
  refine ⟨?_, ?_, ?_⟩
  · rw [ht, ← hn]; exact h.lt
  · rw [ht]; exact h.incr
  · intro r' hr'
    obtain ⟨r, h1, h2⟩ := hr r' hr'
    rw [h2, ht, ← hn]
    exact h.run r h1

omit [GoRuntime] in
theorem published_snoc_other {tr : History} {t : Nat} {e : Ev} (h : ∀ pm, e ≠ .act (.publish pm)) : published (tr ++ [(t, e)]) = published tr := by
  unfold published
  rw [List.filterMap_append]
  cases e with
  | act a => cases a <;> first | exact absurd rfl (h _) | simp
  | _ => simp

omit [GoRuntime] in
theorem publishes_cons_other {a : Act} {l : List Act} (h : ∀ pm, a ≠ .publish pm) : publishes (a :: l) = publishes l := by
  unfold publishes
  cases a <;> first | exact absurd rfl (h _) | simp

theorem midInv {cfg : Config} (hcfg : cfg.OK) {m : Machine} (h : Reachable cfg m) : MidInv m := by
  refine Reachable.ind (P := MidInv) ⟨by simp [Machine.init, published], by simp [Machine.init, published], by simp [Machine.init]⟩ ?_ h
  intro m m' l hreach ih hs
  have refl : ∀ r', m.running = some r' → ∃ r, m.running = some r ∧ publishes r'.todo = publishes r.todo := fun r hr => ⟨r, hr, rfl⟩
  cases hs with
  | refused k env hr => exact ih.same (published_snoc_other (by simp)) rfl refl
  | call k env hr run =>
    have hv := view hcfg hreach env k
    have hle := hv.next_le
    have ht : published (m.trace ++ [(m.now, Ev.called k)]) = published m.trace := published_snoc_other (by simp)
    refine ⟨?_, ?_, ?_⟩
    · intro pm hp
      have := ih.lt pm (by rw [← ht]; exact hp)
      exact Nat.lt_of_lt_of_le this hle
    · exact (show (published (m.trace ++ [(m.now, Ev.called k)])).Pairwise _ from by rw [ht]; exact ih.incr)
    · intro r hr'
      cases hr'
      rcases hv.published_mid hr with h | ⟨pm, h1, h2, h3⟩
      · exact .inl h
      · refine .inr ⟨pm, h1, ?_, ?_⟩
        · rw [h2]; exact h3
        · intro pm' hp
          rw [h2]
          exact ih.lt pm' (by rw [← ht]; exact hp)
  | act r a rest run phase todo plain =>
    by_cases hpb : ∃ pm, a = .publish pm
    · obtain ⟨new, rfl⟩ := hpb
      have ht : published (m.trace ++ [(m.now, Ev.act (.publish new))]) = published m.trace ++ [new] := by
        unfold published; rw [List.filterMap_append]; rfl
      rcases ih.run r run with h | ⟨pm, h1, h2, h3⟩
      · rw [todo] at h; simp [publishes] at h
      · rw [todo] at h1
        have hrest : pm = new ∧ publishes rest = [] := by
          have h1 : new :: publishes rest = [pm] := h1
          injection h1 with e1 e2
          exact ⟨e1.symm, e2⟩
        obtain ⟨rfl, hrest⟩ := hrest
        refine ⟨?_, ?_, ?_⟩
        · intro q hq
          have hq : q ∈ published m.trace ++ [pm] := by rw [← ht]; exact hq
          rcases List.mem_append.mp hq with hq | hq
          · exact ih.lt q hq
          · simp at hq; rw [hq]; exact h2
        · refine (show (published (m.trace ++ [(m.now, Ev.act (.publish pm))])).Pairwise _ from ?_)
          rw [ht, List.pairwise_append]
          exact ⟨ih.incr, by simp, fun q hq x hx => by simp at hx; rw [hx]; exact h3 q hq⟩
        · intro r' hr'
          cases hr'
          exact .inl hrest
    · have hpb' : ∀ pm, a ≠ .publish pm := fun pm e => hpb ⟨pm, e⟩
      refine ih.same (m' := { (m.log (.act a)).perform cfg a with running := some { r with todo := rest, held := heldAfter r.held a } }) ?_ ?_ ?_
      · change published ((m.log (.act a)).perform cfg a).trace = _
        rw [perform_trace]
        exact published_snoc_other (by intro pm e; cases e; exact hpb' pm rfl)
      · exact (perform_next (cfg := cfg) (m := m.log (.act a)) (a := a)).symm
      · intro r' hr'
        cases hr'
        exact ⟨r, run, by rw [todo]; exact (publishes_cons_other hpb').symm⟩
  | release r i rest run phase todo =>
    refine ih.same (published_snoc_other (by simp)) rfl ?_
    intro r' hr'; cases hr'
    exact ⟨r, run, by rw [todo]; exact (publishes_cons_other (by simp)).symm⟩
  | runSkip r i run phase once =>
    refine ih.same rfl rfl ?_
    intro r' hr'; cases hr'; exact ⟨r, run, rfl⟩
  | runBegin r i run phase once =>
    refine ih.same (published_snoc_other (by simp)) rfl ?_
    intro r' hr'; cases hr'; exact ⟨r, run, rfl⟩
  | runEnd r i run phase =>
    refine ih.same (published_snoc_other (by simp)) rfl ?_
    intro r' hr'; cases hr'; exact ⟨r, run, rfl⟩
  | ret r run todo phase =>
    refine ih.same (published_snoc_other (by simp)) rfl ?_
    intro r' hr'; cases hr'
  | freeDec t x y frees phase i rest todo due => exact ih.same rfl rfl refl
  | freeSkip t x y frees i phase once => exact ih.same rfl rfl refl
  | freeBegin t x y frees i phase once => exact ih.same (published_snoc_other (by simp)) rfl refl
  | freeEnd t x y frees i phase => exact ih.same (published_snoc_other (by simp)) rfl refl
  | tick d => exact ih.same rfl rfl refl
  | read => exact ih.same (published_snoc_other (by simp)) rfl refl
  | readCounter => exact ih.same (published_snoc_other (by simp)) rfl refl

/-! ### Times -/

theorem Step.now_le {cfg : Config} {m m' : Machine} {l : Label} (h : Step cfg m l m') : m.now ≤ m'.now := by
  cases h with
  | act r a rest run phase todo plain => cases a <;> exact Nat.le_refl _
  | tick d => exact Nat.le_add_right _ _
  | _ => exact Nat.le_refl _

theorem times {cfg : Config} {m : Machine} (h : Reachable cfg m) :
    m.trace.Pairwise (fun a b => a.1 ≤ b.1) ∧ ∀ e ∈ m.trace, e.1 ≤ m.now := by
  refine Reachable.ind (P := fun m => m.trace.Pairwise (fun a b => a.1 ≤ b.1) ∧ ∀ e ∈ m.trace, e.1 ≤ m.now) (by simp [Machine.init]) ?_ h
  intro m m' l _ ih hs
  have hn := hs.now_le
  rcases hs.emits with ht | ⟨e, ht, _⟩
  · rw [ht]; exact ⟨ih.1, fun e he => Nat.le_trans (ih.2 e he) hn⟩
  · rw [ht]
    refine ⟨?_, ?_⟩
    · rw [List.pairwise_append]
      exact ⟨ih.1, by simp, fun a ha b hb => by simp at hb; rw [hb]; exact ih.2 a ha⟩
    · intro x hx
      rcases List.mem_append.mp hx with hx | hx
      · exact Nat.le_trans (ih.2 x hx) hn
      · simp at hx; rw [hx]; exact hn

/-- Two times of one history. -/
theorem time_le {cfg : Config} {m : Machine} (h : Reachable cfg m) {a b c : History} {x y : Nat × Ev} (he : m.trace = a ++ x :: (b ++ y :: c)) : x.1 ≤ y.1 := by
  have := (times h).1
  rw [he, List.pairwise_append] at this
  exact (List.pairwise_cons.mp this.2.1).1 y (by simp)

/-! ### Delayed frees of the current manager -/

/-- `pending` is set from the start of a delayed free to the next publication. -/
theorem Step.pending_kept {cfg : Config} {m m' : Machine} {l : Label} (h : Step cfg m l m') :
    (∃ om, m'.trace = m.trace ++ [(m.now, .act (.spawnFree om))] ∧ m'.pending.isSome = true) ∨
    (∃ pm, m'.trace = m.trace ++ [(m.now, .act (.publish pm))]) ∨
    (m'.pending = m.pending ∧ ∀ om t, m'.trace ≠ m.trace ++ [(t, .act (.spawnFree om))]) := by
  cases h with
  | act r a rest run phase todo plain =>
    cases a with
    | spawnFree om => exact .inl ⟨om, rfl, rfl⟩
    | publish pm => exact .inr (.inl ⟨pm, rfl⟩)
    | _ => exact .inr (.inr ⟨rfl, by intro pm t; simp [Machine.perform, Machine.log]⟩)
  | _ => exact .inr (.inr ⟨rfl, by intro pm t; simp [Machine.log]⟩)

theorem spawned_pending {cfg : Config} {m : Machine} (h : Reachable cfg m) :
    ∀ a1 T pm a2, m.trace = a1 ++ (T, .act (.spawnFree pm)) :: a2 → published a2 = [] → m.pending.isSome = true := by
  refine Reachable.ind (P := fun m => ∀ a1 T pm a2, m.trace = a1 ++ (T, .act (.spawnFree pm)) :: a2 → published a2 = [] → m.pending.isSome = true) ?_ ?_ h
  · intro a1 T pm a2 h; simp [Machine.init] at h
  intro m m' l _ ih hs a1 T pm a2 he hp
  rcases hs.pending_kept with ⟨om, _, h2⟩ | ⟨q, h1⟩ | ⟨h1, h2⟩
  · exact h2
  · rw [h1] at he
    rcases snoc_split he with ⟨b', rfl, _⟩ | ⟨_, _, h⟩
    · unfold published at hp; rw [List.filterMap_append] at hp; simp at hp
    · cases h
  · rw [h1]
    rcases hs.emits with ht | ⟨e, ht, _⟩
    · exact ih a1 T pm a2 (ht ▸ he) hp
    · rw [ht] at he
      rcases snoc_split he with ⟨b', rfl, hb⟩ | ⟨_, _, h⟩
      · refine ih a1 T pm b' hb ?_
        unfold published at hp ⊢; rw [List.filterMap_append] at hp
        exact (List.append_eq_nil_iff.mp hp).1
      · refine absurd ?_ (h2 pm m.now)
        rw [ht]; injection h with h3 h4; rw [h4]

/-- If the delayed free of a manager was started and the manager is still the last one published, nothing was published in between. -/
theorem spawn_then_current {cfg : Config} (hcfg : cfg.OK) {m : Machine} (h : Reachable cfg m) {a1 a2 b : History} {T : Nat} {pm : Manager}
    (he : m.trace = (a1 ++ (T, .act (.spawnFree pm)) :: a2) ++ b) (h1 : lastPublished a1 = some pm)
    (h2 : lastPublished (a1 ++ (T, .act (.spawnFree pm)) :: a2) = some pm) : published a2 = [] := by
  have hp := (midInv hcfg h).incr
  have e1 : published (a1 ++ (T, .act (.spawnFree pm)) :: a2) = published a1 ++ published a2 := by
    unfold published; rw [List.filterMap_append, List.filterMap_cons_none rfl]
  rw [he] at hp
  have hsub : (published (a1 ++ (T, .act (.spawnFree pm)) :: a2)).Pairwise (fun a b => a.mid < b.mid) := by
    unfold published at hp ⊢
    rw [List.filterMap_append] at hp
    exact (List.pairwise_append.mp hp).1
  rw [e1] at hsub
  unfold lastPublished at h1 h2
  rw [e1] at h2
  rcases List.eq_nil_or_concat (published a2) with h0 | ⟨l, x, hx⟩
  · exact h0
  · exfalso
    rw [List.concat_eq_append] at hx
    rw [hx, ← List.append_assoc, List.getLast?_append] at h2
    simp at h2
    subst h2
    have hm : x ∈ published a1 := List.mem_of_getLast? h1
    have := (List.pairwise_append.mp hsub).2.2 x hm x (by rw [hx]; simp)
    omega

end Hotswap
