import Verif.Proofs.Fair
import Verif.Props.Demo

/-!
# C90: superseded plugins are freed, however often the host reloads

Infinite executions; see Spec/Fair for what makes one fair. Calls may go on for ever.
-/

namespace Hotswap

variable [GoRuntime]

/-- A call that is running goes on until it returns, with the result it was going to return, and it does return. -/
theorem C90_calls_return {cfg : Config} {e : Execution cfg} (hf : e.Fair) {n : Nat} {r : Running} (hr : (e.at_ n).running = some r) :
    ∃ k, n ≤ k ∧ (∀ j, n ≤ j → j ≤ k → (e.at_ j).running.isSome = true) ∧
      (e.at_ (k + 1)).trace = (e.at_ k).trace ++ [((e.at_ k).now, .returned r.kind r.res)] ∧ (e.at_ (k + 1)).running = none :=
  Execution.returned hf hr

/-- The lock is free again and again. -/
theorem C90_lock_free {cfg : Config} {e : Execution cfg} (hf : e.Fair) (n : Nat) : ∃ k, n ≤ k ∧ (e.at_ k).running = none :=
  Execution.returns hf n

/-- An instance that has been set up and that, at a moment when no call is running, is not among the plugins of the current
manager: eventually its OnFree has been called exactly once, and has returned, and that remains so. -/
theorem C90_superseded_freed {cfg : Config} (hcfg : cfg.OK) (hst : cfg.static = none) {e : Execution cfg} (hf : e.Fair) {n i : Nat}
    (hr : (e.at_ n).running = none) (hreg : i ∈ (e.at_ n).regs) (hc : i ∉ (e.at_ n).currentInsts) :
    e.Eventually (fun m => m.begins.count i = 1 ∧ m.ends.count i = 1) :=
  Execution.freed hcfg hst hf hr hreg hc

/-- The two fates of an instance: it is freed exactly once, or it stays a plugin of the current manager for ever and is
never freed. -/
theorem C90_fate {cfg : Config} (hcfg : cfg.OK) (hst : cfg.static = none) {e : Execution cfg} (hf : e.Fair) {n i : Nat} (hreg : i ∈ (e.at_ n).regs) :
    e.Eventually (fun m => m.begins.count i = 1 ∧ m.ends.count i = 1) ∨
    ∀ k, n ≤ k → (e.at_ k).begins.count i = 0 ∧ ((e.at_ k).running = none → i ∈ (e.at_ k).currentInsts) := by
  by_cases h : ∃ k, n ≤ k ∧ (e.at_ k).running = none ∧ i ∉ (e.at_ k).currentInsts
  · obtain ⟨k, hk, h1, h2⟩ := h
    refine .inl (C90_superseded_freed hcfg hst hf h1 ?_ h2)
    refine e.keeps (P := fun m => i ∈ m.regs) ?_ hreg k hk
    intro m m' l _ hm hs
    have hlog : ∀ x, i ∈ (m.log x).regs := fun x => by rw [regs_log]; exact List.mem_append_left _ hm
    cases hs with
    | act r a rest run phase todo plain => have := hlog (.act a); cases a <;> exact this
    | refused k env h => exact hlog _
    | call k env h run => exact hlog (.called k)
    | release r j rest run phase todo => exact hlog (.act (.release j))
    | runBegin r j run phase once => exact hlog (.freeBegin j)
    | runEnd r j run phase => exact hlog (.freeEnd j)
    | ret r run todo phase => exact hlog (.returned r.kind r.res)
    | freeBegin t x y frees j phase once => exact hlog (.freeBegin j)
    | freeEnd t x y frees j phase => exact hlog (.freeEnd j)
    | read => exact hlog _
    | readCounter => exact hlog _
    | _ => exact hm
  · have h' : ∀ k, n ≤ k → (e.at_ k).running = none → i ∈ (e.at_ k).currentInsts := fun k h1 h2 => by
      by_contra h3; exact h ⟨k, h1, h2, h3⟩
    refine .inr (fun k hk => ⟨?_, h' k hk⟩)
    obtain ⟨j, hj, hr⟩ := Execution.returns hf k
    have h0 := current_not_freed hcfg (e.reachable j) hr (h' j (by omega) hr)
    have hmono := e.keeps (P := fun m => (e.at_ k).begins.count i ≤ m.begins.count i) (fun m m' l _ hm hs => Nat.le_trans hm (hs.begins_mono i))
      (Nat.le_refl _) j hj
    omega

/-- If the host stops calling, the program comes to rest. -/
theorem C90_settles {cfg : Config} {e : Execution cfg} (hf : e.Fair) {n : Nat} (hn : ∀ k, n ≤ k → (e.lab k).isCall = false) :
    e.Eventually Machine.Quiet :=
  Execution.settles hf hn

/-- Fairness asks for nothing that the program might be unable to do: from every state that can be reached, a fair execution
continues. -/
theorem C90_fair_exists {cfg : Config} {m : Machine} (hr : Reachable cfg m) : ∃ e : Execution cfg, e.Fair ∧ e.at_ 0 = m :=
  fair_exists hr

/-- Even while the host makes any endless sequence of calls. -/
theorem C90_serves {cfg : Config} {m : Machine} (hr : Reachable cfg m) (c : Nat → Kind × Env) :
    ∃ e : Execution cfg, e.Fair ∧ e.at_ 0 = m ∧
      ∃ pos : Nat → Nat, (∀ i j, i < j → pos i < pos j) ∧ ∀ j, e.lab (pos j) = .call (c j).1 (c j).2 :=
  serve_exists hr c

end Hotswap

namespace Hotswap.Demo

attribute [local instance] Demo.rt

/-- The second state of the demonstration: a reload has superseded instance 1, whose OnFree has not been called. In every
fair execution from there, for example one in which the host reloads for ever, it is freed exactly once; instance 2, which was
kept, is not freed as long as it stays. -/
example : 1 ∈ m2.regs ∧ 1 ∉ m2.currentInsts ∧ m2.running.isNone = true ∧ m2.begins = [] ∧ cfg.static = none ∧
    (∀ e : Execution cfg, e.Fair → e.at_ 0 = m2 → e.Eventually (fun m => m.begins.count 1 = 1 ∧ m.ends.count 1 = 1)) ∧
    (∃ e : Execution cfg, e.Fair ∧ e.at_ 0 = m2 ∧
      ∃ pos : Nat → Nat, (∀ i j, i < j → pos i < pos j) ∧ ∀ j, e.lab (pos j) = .call (.reload none) env2) := by
  have h1 : 1 ∈ m2.regs ∧ m2.running.isNone = true := by decide +kernel
  have h2 : 1 ∉ m2.currentInsts := by rw [m2_facts.1]; decide
  refine ⟨h1.1, h2, h1.2, m2_facts.2.1, rfl, ?_, C90_serves m2_reachable (fun _ => (.reload none, env2))⟩
  intro e hf he
  refine C90_superseded_freed cfg_ok rfl hf (n := 0) ?_ ?_ ?_
  · rw [he]; exact Option.isNone_iff_eq_none.mp h1.2
  · rw [he]; exact h1.1
  · rw [he]; exact h2

end Hotswap.Demo
