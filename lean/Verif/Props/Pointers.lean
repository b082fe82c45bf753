import Verif.Model.PtrMachine
import Verif.Proofs.PtrRun
import Verif.Proofs.Drain
import Verif.Proofs.Views
import Verif.Props.Demo

/-!
# Structs that others can see never change: C74
-/

namespace Hotswap
namespace Ptr

section
variable [GoRuntime]

/-! ### Specification -/

/-- The struct exists. -/
def Exists (h : Heap) : Wr → Prop
  | .plugin r => r < h.cells.length
  | .manager i => ∃ g, h.mgrs i = some g

/-- The manager `i` has a pointer to the plugin struct `r`, in its map or in its order. -/
def Holds (h : Heap) (i r : Nat) : Prop := ∃ g, h.mgrs i = some g ∧ ((∃ k, g.pluginMap.get? k = some r) ∨ r ∈ g.ordered)

/-! ### Proofs -/

/-- The invariant of the worlds. -/
structure WInv (w : World) : Prop where
  mgrs : ∀ i g, w.heap.mgrs i = some g → i < w.m.next ∧ InRange 0 w.heap.cells.length g
  apart : ∀ i j r, Holds w.heap i r → Holds w.heap j r → i = j
  current : ∀ pm, w.m.current = some pm → w.heap.manager pm.mid = some pm
  todo : ∀ r, w.m.running = some r → ∀ pm, .publish pm ∈ r.todo → w.heap.manager pm.mid = some pm
  traced : ∀ pm ∈ published w.m.trace, w.heap.manager pm.mid = some pm

theorem End.inv {B : Start} {s : PSt} (h : End B s) : Inv B s := by
  cases h with
  | nothing hi => exact hi
  | manager h => exact h.inv

theorem WInv.oldOK {w : World} (h : WInv w) : OldOK ⟨w.m.next, w.heap⟩ (w.m.current.map (·.mid)) := by
  intro om ho
  obtain ⟨pm, hc, rfl⟩ := Option.map_eq_some_iff.mp ho
  have := h.current pm hc
  obtain ⟨g, hg, -⟩ := Option.map_eq_some_iff.mp this
  exact ⟨(h.mgrs _ g hg).1, g, hg, (h.mgrs _ g hg).2⟩

theorem WInv.old {w : World} (h : WInv w) : (w.m.current.map (·.mid)).bind w.heap.manager = w.m.current := by
  cases hc : w.m.current with
  | none => rfl
  | some pm => exact h.current pm hc

theorem built_eq (s : PSt) : (s.me.bind s.heap.manager).getD noManager = s.abs.pm := by
  unfold PSt.abs
  cases s.me <;> rfl

/-- A step with structs is a step of the machine. -/
theorem World.step_eq {cfg : Config} {w : World} (h : WInv w) (l : Label) : (w.step cfg l).map World.m = w.m.step cfg l := by
  cases l with
  | call k env =>
    simp only [World.step, Machine.step]
    split
    · rfl
    · cases w.m.running with
      | some r => rfl
      | none =>
        have := (run_refines cfg env k h.oldOK).1
        rw [h.old] at this
        simp only [Option.map_some, this, built_eq]
  | _ =>
    simp only [World.step, Option.map_map, Function.comp_def]
    cases w.m.step cfg _ <;> rfl

/-- What a step does to the structs: nothing, or what a call does. -/
theorem World.step_heap {cfg : Config} {w w' : World} {l : Label} (hs : w.step cfg l = some w') :
    w'.heap = w.heap ∨ ∃ k env, l = .call k env ∧ refused cfg k = false ∧ w.m.running = none ∧ w'.heap = (run cfg env k (w.m.current.map (·.mid)) w.m.next w.heap).2.heap := by
  cases l with
  | call k env =>
    simp only [World.step] at hs
    split at hs
    · left; cases hs; rfl
    · rename_i hr
      cases hrun : w.m.running with
      | some r => rw [hrun] at hs; cases hs
      | none =>
        rw [hrun] at hs
        cases hs
        right
        exact ⟨k, env, rfl, by simpa using hr, rfl, rfl⟩
  | _ =>
    left
    simp only [World.step] at hs
    obtain ⟨m, -, rfl⟩ := Option.map_eq_some_iff.mp hs
    rfl

/-- What exists when a call begins is the same when it ends. -/
theorem WInv.kept {w : World} (h : WInv w) {s : PSt} (hi : Inv ⟨w.m.next, w.heap⟩ s) {i : Nat} {g : PMgr} (hg : w.heap.mgrs i = some g) :
    s.heap.mgrs i = some g ∧ s.heap.manager i = w.heap.manager i := by
  obtain ⟨h1, h2⟩ := h.mgrs i g hg
  have hm : s.heap.mgrs i = some g := (hi.mgrs i h1).trans hg
  refine ⟨hm, ?_⟩
  rw [Heap.manager_some hm, Heap.manager_some hg]
  exact congrArg some (view_congr h2 (fun r hr => hi.deref hr))

theorem Heap.manager_inv {h : Heap} {i : Nat} {pm : Manager} (hm : h.manager i = some pm) : ∃ g, h.mgrs i = some g := by
  obtain ⟨g, hg, -⟩ := Option.map_eq_some_iff.mp hm
  exact ⟨g, hg⟩

theorem WInv.kept' {w : World} (h : WInv w) {s : PSt} (hi : Inv ⟨w.m.next, w.heap⟩ s) {i : Nat} {pm : Manager} (hm : w.heap.manager i = some pm) : s.heap.manager i = some pm := by
  obtain ⟨g, hg⟩ := Heap.manager_inv hm
  exact (h.kept hi hg).2.trans hm

theorem published_append {tr : History} {t : Nat} {e : Ev} {pm : Manager} (h : pm ∈ published (tr ++ [(t, e)])) : pm ∈ published tr ∨ e = .act (.publish pm) := by
  unfold published at h ⊢
  rw [List.filterMap_append, List.mem_append] at h
  rcases h with h | h
  · exact .inl h
  · right
    cases e with
    | act a =>
      cases a with
      | publish q => simp at h; rw [h]
      | _ => simp at h
    | _ => simp at h

/-- The invariant after a call. -/
theorem WInv.called {cfg : Config} (hcfg : cfg.OK) {w : World} (hr : Reachable cfg w.m) (h : WInv w) (k : Kind) (env : Env) (hk : refused cfg k = false) (hrun : w.m.running = none) {w' : World}
    (hs : w.step cfg (.call k env) = some w') : WInv w' := by
  obtain ⟨href, hend⟩ := run_refines cfg env k h.oldOK
  rw [h.old] at href
  have hi := hend.inv
  simp only [World.step, hk, hrun] at hs
  cases hs
  have hnext := hi.next
  generalize hrr : run cfg env k (w.m.current.map (·.mid)) w.m.next w.heap = rr at href hend hi hnext ⊢
  have hlen : w.heap.cells.length ≤ rr.2.heap.cells.length := by
    obtain ⟨t, ht⟩ := hi.cells
    rw [ht, List.length_append]; exact Nat.le_add_right _ _
  -- what the managers of the new heap are
  have hnew : ∀ i g, rr.2.heap.mgrs i = some g → (w.heap.mgrs i = some g) ∨ (w.m.next ≤ i ∧ i < rr.2.next ∧ InRange w.heap.cells.length rr.2.heap.cells.length g) := by
    intro i g hg
    cases hend with
    | nothing _ _ hh => left; rw [hh] at hg; exact hg
    | manager ha =>
      obtain ⟨i0, g0, hl⟩ := ha
      by_cases he : i = i0
      · subst he
        rw [hl.mgr] at hg; cases hg
        exact .inr ⟨hl.mine, hl.taken, hl.range⟩
      · left; rw [← hg]; exact (hl.others i he).symm
  have hnewone : ∀ i g i' g', rr.2.heap.mgrs i = some g → rr.2.heap.mgrs i' = some g' → w.heap.mgrs i = none → w.heap.mgrs i' = none → i = i' := by
    intro i g i' g' hg hg' hn hn'
    cases hend with
    | nothing _ _ hh => rw [hh] at hg; rw [hn] at hg; cases hg
    | manager ha =>
      obtain ⟨i0, g0, hl⟩ := ha
      have : ∀ j g, rr.2.heap.mgrs j = some g → w.heap.mgrs j = none → j = i0 := by
        intro j g hg hn
        by_cases he : j = i0
        · exact he
        · rw [hl.others j he] at hg; rw [hn] at hg; cases hg
      rw [this i g hg hn, this i' g' hg' hn']
  have hheld : ∀ i r, Holds rr.2.heap i r → (Holds w.heap i r ∧ r < w.heap.cells.length) ∨ (w.heap.mgrs i = none ∧ w.heap.cells.length ≤ r) := by
    rintro i r ⟨g, hg, hh⟩
    rcases hnew i g hg with h1 | ⟨h1, h2, h3⟩
    · left
      refine ⟨⟨g, h1, hh⟩, ?_⟩
      rcases hh with ⟨k, hk⟩ | hh
      · exact ((h.mgrs i g h1).2.vals k r hk).2
      · exact ((h.mgrs i g h1).2.ordered r hh).2
    · right
      constructor
      · cases hw : w.heap.mgrs i with
        | none => rfl
        | some g' => have := (h.mgrs i g' hw).1; omega
      · rcases hh with ⟨k, hk⟩ | hh
        · exact (h3.vals k r hk).1
        · exact (h3.ordered r hh).1
  constructor
  · intro i g hg
    rcases hnew i g hg with h1 | ⟨h1, h2, h3⟩
    · obtain ⟨h4, h5⟩ := h.mgrs i g h1
      refine ⟨Nat.lt_of_lt_of_le h4 hnext, ?_⟩
      constructor
      · intro k r hk; have := h5.vals k r hk; exact ⟨this.1, Nat.lt_of_lt_of_le this.2 hlen⟩
      · intro r hr; have := h5.ordered r hr; exact ⟨this.1, Nat.lt_of_lt_of_le this.2 hlen⟩
    · refine ⟨h2, ?_⟩
      constructor
      · intro k r hk; exact ⟨Nat.zero_le _, (h3.vals k r hk).2⟩
      · intro r hr; exact ⟨Nat.zero_le _, (h3.ordered r hr).2⟩
  · intro i j r h1 h2
    rcases hheld i r h1 with ⟨h3, h4⟩ | ⟨h3, h4⟩ <;> rcases hheld j r h2 with ⟨h5, h6⟩ | ⟨h5, h6⟩
    · exact h.apart i j r h3 h5
    · omega
    · omega
    · obtain ⟨g, hg, -⟩ := h1
      obtain ⟨g', hg', -⟩ := h2
      exact hnewone i g j g' hg hg' h3 h5
  · intro pm hc
    exact h.kept' hi (h.current pm hc)
  · intro r hr' pm hpm
    cases hr'
    have hpm' : Act.publish pm ∈ (plan cfg env k w.m.current w.m.next).acts := by rw [href]; exact hpm
    obtain ⟨hb, -⟩ := (view hcfg hr env k).published hk hpm'
    rw [href] at hb
    cases hend with
    | nothing _ _ _ hq => exact absurd hpm (hq pm)
    | manager ha =>
      obtain ⟨i, g, hl⟩ := ha
      have : pm = rr.2.heap.view i g := by rw [hb, hl.abs]
      rw [this]
      exact Heap.manager_some hl.mgr
  · intro pm hpm
    rcases published_append hpm with h1 | h1
    · exact h.kept' hi (h.traced pm h1)
    · cases h1

/-- The invariant after any other step. -/
theorem WInv.other {cfg : Config} {w : World} (h : WInv w) {m' : Machine} {l : Label} (hs : Step cfg w.m l m') (hl : ∀ k env, l = .call k env → refused cfg k = true) : WInv ⟨m', w.heap⟩ := by
  have hsame : ∀ e, (∀ pm, e ≠ .act (.publish pm)) → ∀ pm ∈ published (w.m.trace ++ [(w.m.now, e)]), w.heap.manager pm.mid = some pm := by
    intro e he pm hpm
    rcases published_append hpm with h1 | h1
    · exact h.traced pm h1
    · exact absurd h1 (he pm)
  cases hs with
  | refused => exact ⟨h.mgrs, h.apart, h.current, h.todo, hsame _ (fun pm h => nomatch h)⟩
  | call k env hk => rw [hl k env rfl] at hk; cases hk
  | act r a rest run phase td plain =>
    have hcur : ∀ pm, (Machine.perform cfg (w.m.log (.act a)) a).current = some pm → w.heap.manager pm.mid = some pm := by
      intro pm hc
      have : w.m.current = some pm ∨ a = .publish pm := by
        cases a <;> first | exact .inl hc | (right; cases hc; rfl)
      rcases this with hc | rfl
      · exact h.current pm hc
      · exact h.todo r run pm (by rw [td]; simp)
    have hnext : (Machine.perform cfg (w.m.log (.act a)) a).next = w.m.next := by cases a <;> rfl
    have htr : (Machine.perform cfg (w.m.log (.act a)) a).trace = w.m.trace ++ [(w.m.now, .act a)] := by cases a <;> rfl
    refine ⟨?_, h.apart, hcur, ?_, ?_⟩
    · intro i g hg
      change i < (Machine.perform cfg (w.m.log (.act a)) a).next ∧ _
      rw [hnext]; exact h.mgrs i g hg
    · intro r' hr' pm hpm
      cases hr'
      exact h.todo r run pm (by rw [td]; exact List.mem_cons_of_mem _ hpm)
    · intro pm hpm
      change pm ∈ published (Machine.perform cfg (w.m.log (.act a)) a).trace at hpm
      rw [htr] at hpm
      rcases published_append hpm with h1 | h1
      · exact h.traced pm h1
      · cases h1; exact h.todo r run pm (by rw [td]; simp)
  | release r i rest run phase td =>
    refine ⟨h.mgrs, h.apart, h.current, ?_, hsame _ (fun pm h => nomatch h)⟩
    intro r' hr' pm hpm
    cases hr'
    exact h.todo r run pm (by rw [td]; exact List.mem_cons_of_mem _ hpm)
  | runSkip r i run => exact ⟨h.mgrs, h.apart, h.current, (by intro r' hr' pm hpm; cases hr'; exact h.todo r run pm hpm), h.traced⟩
  | runBegin r i run => exact ⟨h.mgrs, h.apart, h.current, (by intro r' hr' pm hpm; cases hr'; exact h.todo r run pm hpm), hsame _ (fun pm h => nomatch h)⟩
  | runEnd r i run => exact ⟨h.mgrs, h.apart, h.current, (by intro r' hr' pm hpm; cases hr'; exact h.todo r run pm hpm), hsame _ (fun pm h => nomatch h)⟩
  | ret => exact ⟨h.mgrs, h.apart, h.current, (by intro r' hr'; cases hr'), hsame _ (fun pm h => nomatch h)⟩
  | freeDec => exact ⟨h.mgrs, h.apart, h.current, h.todo, h.traced⟩
  | freeSkip => exact ⟨h.mgrs, h.apart, h.current, h.todo, h.traced⟩
  | freeBegin => exact ⟨h.mgrs, h.apart, h.current, h.todo, hsame _ (fun pm h => nomatch h)⟩
  | freeEnd => exact ⟨h.mgrs, h.apart, h.current, h.todo, hsame _ (fun pm h => nomatch h)⟩
  | tick => exact ⟨h.mgrs, h.apart, h.current, h.todo, h.traced⟩
  | read => exact ⟨h.mgrs, h.apart, h.current, h.todo, hsame _ (fun pm h => nomatch h)⟩
  | readCounter => exact ⟨h.mgrs, h.apart, h.current, h.todo, hsame _ (fun pm h => nomatch h)⟩

theorem winv {cfg : Config} (hcfg : cfg.OK) {w : World} (h : WReachable cfg w) : Reachable cfg w.m ∧ WInv w := by
  induction h with
  | init =>
    refine ⟨.init, ?_⟩
    exact ⟨(fun i g h => nomatch h), (fun i j r h => by obtain ⟨g, hg, -⟩ := h; cases hg), (fun pm h => nomatch h), (fun r h => nomatch h), (fun pm h => nomatch h)⟩
  | @step w w' l _ hs ih =>
    obtain ⟨hr, hi⟩ := ih
    have hm : w.m.step cfg l = some w'.m := by rw [← World.step_eq hi, hs]; rfl
    refine ⟨.step l hr hm, ?_⟩
    by_cases hc : ∃ k env, l = .call k env ∧ refused cfg k = false
    · obtain ⟨k, env, rfl, hk⟩ := hc
      cases hrun : w.m.running with
      | none => exact hi.called hcfg hr k env hk hrun hs
      | some r => simp [World.step, hk, hrun] at hs
    · have := hi.other (step_view hm) (fun k env he => by
        cases hk : refused cfg k with
        | true => rfl
        | false => exact absurd ⟨k, env, he, hk⟩ hc)
      rcases World.step_heap hs with hh | ⟨k, env, he, hk, -⟩
      · rw [← hh] at this; exact this
      · exact absurd ⟨k, env, he, hk⟩ hc

/-! ### C74 -/

/-- **C74.** With pointers, structs and assignments the program does exactly what the model without them does: the reachable states are the same. -/
theorem C74_refines {cfg : Config} (hcfg : cfg.OK) (m : Machine) : Reachable cfg m ↔ ∃ heap, WReachable cfg ⟨m, heap⟩ := by
  constructor
  · intro h
    induction h with
    | init => exact ⟨_, .init⟩
    | @step m m' l _ hs ih =>
      obtain ⟨heap, hw⟩ := ih
      have := World.step_eq (cfg := cfg) (winv hcfg hw).2 l
      change _ = m.step cfg l at this
      rw [hs] at this
      obtain ⟨w', hw', rfl⟩ := Option.map_eq_some_iff.mp this
      exact ⟨w'.heap, .step l hw hw'⟩
  · rintro ⟨heap, hw⟩
    exact (winv hcfg hw).1

/-- **C74.** Whoever follows the pointers from `Current()` finds, at any time, what the call that published the manager put there. -/
theorem C74_current {cfg : Config} (hcfg : cfg.OK) {w : World} (h : WReachable cfg w) {pm : Manager} (hc : w.m.current = some pm) : w.heap.manager pm.mid = some pm := (winv hcfg h).2.current pm hc

/-- **C74.** The same holds for every manager that was ever published: whoever still has a pointer to it finds it unchanged. -/
theorem C74_published {cfg : Config} (hcfg : cfg.OK) {w : World} (h : WReachable cfg w) {pm : Manager} (hp : pm ∈ published w.m.trace) : w.heap.manager pm.mid = some pm := (winv hcfg h).2.traced pm hp

/-- **C74.** A call assigns only to structs that did not exist when it began. -/
theorem C74_writes {cfg : Config} (hcfg : cfg.OK) {w : World} (h : WReachable cfg w) (k : Kind) (env : Env) :
    ∀ x ∈ (run cfg env k (w.m.current.map (·.mid)) w.m.next w.heap).2.writes, ¬ Exists w.heap x := by
  have hi := (winv hcfg h).2
  intro x hx he
  have hf := (run_refines cfg env k hi.oldOK).2.inv.writes x hx
  cases x with
  | plugin r => exact absurd he (Nat.not_lt.mpr hf)
  | manager i =>
    obtain ⟨g, hg⟩ := he
    exact absurd (hi.mgrs i g hg).1 (Nat.not_lt.mpr hf)

theorem WLeads.reachable {cfg : Config} {w w' : World} (h : WReachable cfg w) (hl : WLeads cfg w w') : WReachable cfg w' := by
  induction hl with
  | refl => exact h
  | step l _ hs ih => exact .step l ih hs

/-- **C74.** Structs never change, whatever happens: neither the `Plugin`s nor the `PluginManager`s nor what they lead to. -/
theorem C74_never_changes {cfg : Config} (hcfg : cfg.OK) {w w' : World} (h : WReachable cfg w) (hl : WLeads cfg w w') :
    (∀ r, r < w.heap.cells.length → w'.heap.cells[r]? = w.heap.cells[r]?) ∧
    (∀ i, (∃ g, w.heap.mgrs i = some g) → w'.heap.mgrs i = w.heap.mgrs i ∧ w'.heap.manager i = w.heap.manager i) := by
  induction hl with
  | refl => exact ⟨fun _ _ => rfl, fun _ _ => ⟨rfl, rfl⟩⟩
  | @step w1 w2 l hl1 hs ih =>
    have hi := (winv hcfg (WLeads.reachable h hl1)).2
    obtain ⟨ih1, ih2⟩ := ih
    rcases World.step_heap hs with hh | ⟨k, env, -, hk, hrun, hh⟩
    · rw [hh]; exact ⟨ih1, ih2⟩
    · have hinv := (run_refines cfg env k hi.oldOK).2.inv
      rw [hh]
      constructor
      · intro r hr
        have h1 := ih1 r hr
        rw [← h1]
        obtain ⟨t, ht⟩ := hinv.cells
        have hlt : r < w1.heap.cells.length := by
          rw [List.getElem?_eq_getElem hr] at h1
          exact (List.getElem?_eq_some_iff.mp h1).1
        rw [ht, List.getElem?_append_left hlt]
      · rintro i ⟨g, hg⟩
        obtain ⟨h1, h2⟩ := ih2 i ⟨g, hg⟩
        rw [hg] at h1
        obtain ⟨h3, h4⟩ := hi.kept hinv h1
        exact ⟨by rw [h3, hg], h4.trans h2⟩

/-- **C74.** Two managers never share a `Plugin` struct: a kept plugin is a copy. -/
theorem C74_no_sharing {cfg : Config} (hcfg : cfg.OK) {w : World} (h : WReachable cfg w) {i j r : Nat} (hi : Holds w.heap i r) (hj : Holds w.heap j r) : i = j :=
  (winv hcfg h).2.apart i j r hi hj

end

/-! ### Non-vacuity: the run of `Demo` with structs -/

namespace Example
open Demo
attribute [local instance] rt

/-- A sequence of steps. -/
def go (c : Config) (w : World) : List Label → Option World
  | [] => some w
  | l :: ls => (w.step c l).bind (fun w' => go c w' ls)

theorem go_leads {c : Config} {w w' : World} {ls : List Label} (h : go c w ls = some w') : WLeads c w w' := by
  have trans : ∀ {a b d : World}, WLeads c a b → WLeads c b d → WLeads c a d := by
    intro a b d h1 h2
    induction h2 with
    | refl => exact h1
    | step l _ hs ih => exact .step l ih hs
  induction ls generalizing w with
  | nil => cases h; exact .refl _
  | cons l ls ih =>
    obtain ⟨w1, h1, h2⟩ := Option.bind_eq_some_iff.mp h
    exact trans (.step l (.refl _) h1) (ih h2)

/-- After the first load. -/
def w1 : World := (go cfg .init steps1).getD .init
/-- After the first load and a reload in which only `app` had changed. -/
def w2 : World := (go cfg .init steps2).getD .init

theorem w1_some : (go cfg .init steps1).isSome = true := by decide +kernel
theorem w2_some : (go cfg .init steps2).isSome = true := by decide +kernel

theorem w1_reachable : WReachable cfg w1 := by
  obtain ⟨w, hw⟩ := Option.isSome_iff_exists.mp w1_some
  have : w1 = w := by unfold w1; rw [hw]; rfl
  rw [this]
  exact WLeads.reachable .init (go_leads hw)

theorem w2_reachable : WReachable cfg w2 := by
  obtain ⟨w, hw⟩ := Option.isSome_iff_exists.mp w2_some
  have : w2 = w := by unfold w2; rw [hw]; rfl
  rw [this]
  exact WLeads.reachable .init (go_leads hw)

/-- The load makes two structs; the reload makes a copy of the one (instance 2) and a new one (instance 4), and the old ones stay. -/
example : w1.heap.cells.map (fun p => (p.inst, p.unchanged)) = [(1, false), (2, false)] ∧
    w2.heap.cells.map (fun p => (p.inst, p.unchanged)) = [(1, false), (2, false), (2, true), (4, false)] := by decide +kernel

/-- The pointers of the two managers. -/
example : (w2.heap.mgrs 0).map (·.ordered) = some [1, 0] ∧ (w2.heap.mgrs 3).map (·.ordered) = some [2, 3] := by decide +kernel

/-- What the reload assigns to: its own structs only. -/
example : (Ptr.run cfg env2 (.reload none) (w1.m.current.map (·.mid)) w1.m.next w1.heap).2.writes =
    [.manager 3, .plugin 2, .plugin 2, .plugin 2, .manager 3, .plugin 3, .manager 3, .plugin 3, .manager 3, .manager 3, .manager 3, .manager 3] := by decide +kernel

end Example

end Ptr
end Hotswap
