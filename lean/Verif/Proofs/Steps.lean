import Verif.Spec.Trace

/-! The steps of the machine, one case each. -/

namespace Hotswap

variable [GoRuntime]

/-- The steps, one case each. -/
inductive Step (cfg : Config) (m : Machine) : Label → Machine → Prop
  | refused (k : Kind) (env : Env) (h : Hotswap.refused cfg k = true) : Step cfg m (.call k env) (m.log .refused)
  | call (k : Kind) (env : Env) (h : Hotswap.refused cfg k = false) (run : m.running = none) :
      Step cfg m (.call k env) { m.log (.called k) with
          next := (plan cfg env k m.current m.next).next
          builts := (plan cfg env k m.current m.next).built :: m.builts
          running := some { kind := k, todo := (plan cfg env k m.current m.next).acts, res := (plan cfg env k m.current m.next).res, phase := .idle, held := [] } }
  | act (r : Running) (a : Act) (rest : List Act) (run : m.running = some r) (phase : r.phase = .idle) (todo : r.todo = a :: rest)
      (plain : ∀ i, a ≠ .release i) :
      Step cfg m .act { (m.log (.act a)).perform cfg a with
        running := some { r with todo := rest, held := heldAfter r.held a } }
  | release (r : Running) (i : Nat) (rest : List Act) (run : m.running = some r) (phase : r.phase = .idle) (todo : r.todo = .release i :: rest) :
      Step cfg m .act { m.log (.act (.release i)) with
        refs := upd m.refs i (m.refs i - 1)
        running := some { r with todo := rest, phase := if m.refs i - 1 > 0 then .idle else .zero i, held := r.held.erase i } }
  | runSkip (r : Running) (i : Nat) (run : m.running = some r) (phase : r.phase = .zero i) (once : m.once i = true) :
      Step cfg m .act { m with running := some { r with phase := .idle } }
  | runBegin (r : Running) (i : Nat) (run : m.running = some r) (phase : r.phase = .zero i) (once : m.once i = false) :
      Step cfg m .act { m.log (.freeBegin i) with
        once := upd m.once i true
        running := some { r with phase := .inside i } }
  | runEnd (r : Running) (i : Nat) (run : m.running = some r) (phase : r.phase = .inside i) :
      Step cfg m .act { m.log (.freeEnd i) with running := some { r with phase := .idle } }
  | ret (r : Running) (run : m.running = some r) (todo : r.todo = []) (phase : r.phase = .idle) :
      Step cfg m .ret { m.log (.returned r.kind r.res) with running := none }
  | freeDec (t : FreeTask) (x y : List FreeTask) (frees : m.frees = x ++ t :: y) (phase : t.phase = .idle) (i : Nat) (rest : List Nat) (todo : t.todo = i :: rest)
      (due : t.due ≤ m.now) :
      Step cfg m (.free x.length) { m with
        refs := upd m.refs i (m.refs i - 1)
        frees := x ++ { t with todo := rest, phase := if m.refs i - 1 > 0 then .idle else .zero i } :: y }
  | freeSkip (t : FreeTask) (x y : List FreeTask) (frees : m.frees = x ++ t :: y) (i : Nat) (phase : t.phase = .zero i) (once : m.once i = true) :
      Step cfg m (.free x.length) { m with frees := x ++ { t with phase := .idle } :: y }
  | freeBegin (t : FreeTask) (x y : List FreeTask) (frees : m.frees = x ++ t :: y) (i : Nat) (phase : t.phase = .zero i) (once : m.once i = false) :
      Step cfg m (.free x.length) { m.log (.freeBegin i) with
        once := upd m.once i true
        frees := x ++ { t with phase := .inside i } :: y }
  | freeEnd (t : FreeTask) (x y : List FreeTask) (frees : m.frees = x ++ t :: y) (i : Nat) (phase : t.phase = .inside i) :
      Step cfg m (.free x.length) { m.log (.freeEnd i) with frees := x ++ { t with phase := .idle } :: y }
  | tick (d : Nat) : Step cfg m (.tick d) { m with now := m.now + d }
  | read : Step cfg m .read (m.log (.observed (m.current.map (·.mid))))
  | readCounter : Step cfg m .readCounter (m.log (.counted m.counter))

omit [GoRuntime] in
theorem split_at {α : Type} {l : List α} {n : Nat} {t : α} (h : l[n]? = some t) :
    ∃ x y, l = x ++ t :: y ∧ n = x.length ∧ ∀ t', l.set n t' = x ++ t' :: y := by
  obtain ⟨hn, rfl⟩ := List.getElem?_eq_some_iff.mp h
  refine ⟨l.take n, l.drop (n + 1), ?_, ?_, ?_⟩
  · rw [List.getElem_cons_drop hn, List.take_append_drop]
  · simp; omega
  · intro t'; rw [List.set_eq_take_append_cons_drop, if_pos hn]

theorem step_view {cfg : Config} {m m' : Machine} {l : Label} (h : m.step cfg l = some m') : Step cfg m l m' := by
  unfold Machine.step at h
  cases l with
  | call k env =>
    simp only at h
    split at h
    · rename_i hr; cases h; exact .refused k env hr
    · rename_i hr
      cases hrun : m.running with
      | some r => rw [hrun] at h; cases h
      | none =>
        rw [hrun] at h
        cases h
        exact .call k env (by simpa using hr) hrun
  | act =>
    simp only at h
    cases hrun : m.running with
    | none => rw [hrun] at h; cases h
    | some r =>
      rw [hrun] at h
      simp only at h
      unfold Machine.stepRunning at h
      cases hp : r.phase with
      | zero i =>
        simp only [hp, Machine.onceDo] at h
        cases ho : m.once i with
        | true => simp only [ho, if_true] at h; cases h; exact .runSkip r i hrun hp ho
        | false => simp only [ho, Bool.false_eq_true, if_false] at h; cases h; exact .runBegin r i hrun hp ho
      | inside i => simp only [hp] at h; cases h; exact .runEnd r i hrun hp
      | idle =>
        simp only [hp] at h
        cases ht : r.todo with
        | nil => rw [ht] at h; cases h
        | cons a rest =>
          rw [ht] at h
          cases a with
          | release i => simp only [Machine.dec] at h; cases h; exact .release r i rest hrun hp ht
          | _ => cases h; have := Step.act (cfg := cfg) r _ rest hrun hp ht (by intro i; simp); rw [hp] at this; simpa using this
  | ret =>
    simp only at h
    cases hrun : m.running with
    | none => rw [hrun] at h; cases h
    | some r =>
      rw [hrun] at h
      simp only at h
      split at h
      · rename_i hc
        cases h
        simp at hc
        exact .ret r hrun hc.1 hc.2
      · cases h
  | free n =>
    simp only at h
    unfold Machine.stepFree at h
    cases hn : m.frees[n]? with
    | none => rw [hn] at h; cases h
    | some t =>
      obtain ⟨x, y, he, rfl, hs⟩ := split_at hn
      rw [hn] at h
      simp only at h
      cases hp : t.phase with
      | zero i =>
        simp only [hp, Machine.onceDo] at h
        cases ho : m.once i with
        | true => simp only [ho, if_true, hs] at h; cases h; exact .freeSkip t x y he i hp ho
        | false => simp only [ho, Bool.false_eq_true, if_false, hs] at h; cases h; exact .freeBegin t x y he i hp ho
      | inside i => simp only [hp, hs] at h; cases h; exact .freeEnd t x y he i hp
      | idle =>
        simp only [hp] at h
        cases ht : t.todo with
        | nil => rw [ht] at h; cases h
        | cons i rest =>
          rw [ht] at h
          simp only at h
          split at h
          · cases h
          · rename_i hd
            simp only [Machine.dec, hs] at h
            cases h
            exact .freeDec t x y he hp i rest ht (by omega)
  | tick d => cases h; exact .tick d
  | read => cases h; exact .read
  | readCounter => cases h; exact .readCounter

/-- Induction over reachable states, by kinds of steps. -/
theorem Reachable.ind {cfg : Config} {P : Machine → Prop} (h0 : P Machine.init)
    (hs : ∀ m m' l, Reachable cfg m → P m → Step cfg m l m' → P m') {m : Machine} (h : Reachable cfg m) : P m := by
  induction h with
  | init => exact h0
  | step l hr he ih => exact hs _ _ l hr ih (step_view he)

end Hotswap
