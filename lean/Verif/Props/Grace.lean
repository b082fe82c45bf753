import Verif.Proofs.Mids
import Verif.Props.Schedule

/-!
# How long a manager obtained from `Current()` may be used (C57)
-/

namespace Hotswap

section
variable [GoRuntime]

theorem delay_eq (cfg : Config) : cfg.delay = max 15000000000 cfg.freeDelay := by
  unfold Config.delay minFreeDelay; split <;> omega

/-- **C38.** No two publications concern the same manager: the identities reported by `Current()` strictly increase from one publication to the next. -/
theorem C38_managers_distinct {cfg : Config} (hcfg : cfg.OK) {m : Machine} (h : Reachable cfg m) :
    (published m.trace).Pairwise (fun a b => a.mid < b.mid) :=
  (midInv hcfg h).incr

/-- **C57.** Somebody obtains a manager from `Current()` at time `t`. `OnFree` begins on one of its plugins no earlier than max(15 s, `WithFreeDelay`) after `t`;
or, if at time `t` a load has started the delayed free of this manager but not yet published the next one, no earlier than that long after
this start. For every schedule, whatever is loaded in between, whether or not the plugin is kept by later reloads. -/
theorem C57_grace_period {cfg : Config} (hcfg : cfg.OK) {m : Machine} (h : Reachable cfg m) {a b c : History} {t t' i : Nat} {x : Option Nat} {pm : Manager}
    (he : m.trace = a ++ (t, .observed x) :: (b ++ (t', .freeBegin i) :: c)) (hpm : lastPublished a = some pm) (hi : i ∈ pm.insts) :
    t + max 15000000000 cfg.freeDelay ≤ t' ∨
    ∃ a1 T a2, a = a1 ++ (T, .act (.spawnFree pm)) :: a2 ∧ published a2 = [] ∧ T + max 15000000000 cfg.freeDelay ≤ t' := by
  have hp : ∃ T, (T, Ev.act (.publish pm)) ∈ a := by
    unfold lastPublished published at hpm
    obtain ⟨⟨T, e⟩, he, hq⟩ := List.mem_filterMap.mp (List.mem_of_getLast? hpm)
    cases e with
    | act x => cases x <;> simp at hq; subst hq; exact ⟨T, he⟩
    | _ => simp at hq
  obtain ⟨T, hp⟩ := hp
  obtain ⟨T0, h1, h2⟩ := C12_free_delay hcfg h (a := a ++ (t, .observed x) :: b) (b := c) (t := t') (i := i) (T := T) (pm := pm) (by rw [he]; simp) (by simp [hp]) hi
  rcases List.mem_append.mp h1 with h1 | h1
  · obtain ⟨a1, a2, rfl⟩ := List.append_of_mem h1
    refine .inr ⟨a1, T0, a2, rfl, ?_, h2⟩
    refine spawn_then_current hcfg h he ?_ hpm
    exact C12_spawn_of_current hcfg h (a := a1) (t := T0) (b := a2 ++ (t, .observed x) :: (b ++ (t', .freeBegin i) :: c)) (by rw [he]; simp)
  · left
    rcases List.mem_cons.mp h1 with h1 | h1
    · cases h1
    · obtain ⟨b1, b2, rfl⟩ := List.append_of_mem h1
      have := time_le h (a := a) (x := (t, .observed x)) (b := b1) (y := (T0, .act (.spawnFree pm))) (c := b2 ++ (t', .freeBegin i) :: c) (by rw [he]; simp)
      simp only at this
      omega

/-- **C57.** If no load is running when the manager is obtained, the whole delay is guaranteed. -/
theorem C57_grace_period_idle {cfg : Config} (hcfg : cfg.OK) {m : Machine} (h : Reachable cfg m) {a b c : History} {t t' i : Nat} {x : Option Nat} {pm : Manager}
    (he : m.trace = a ++ (t, .observed x) :: (b ++ (t', .freeBegin i) :: c)) (hidle : openCall a = none)
    (hpm : lastPublished a = some pm) (hi : i ∈ pm.insts) : t + max 15000000000 cfg.freeDelay ≤ t' := by
  rcases C57_grace_period hcfg h he hpm hi with h1 | ⟨a1, T, a2, h1, h2, _⟩
  · exact h1
  · exfalso
    have := hist (cfg := cfg) (Q := fun a e => (∃ x, e.2 = .observed x) → openCall a = none → ∀ a1 T pm a2, a = a1 ++ (T, .act (.spawnFree pm)) :: a2 → published a2 ≠ []) ?_
      h a (t, .observed x) _ he ⟨x, rfl⟩ hidle a1 T pm a2 h1
    · exact this h2
    · intro m e hr _ _ hop a1 T pm a2 htr hpub
      have hrun : m.running = none := by
        have := openCall_eq hr
        rw [hop] at this
        cases hm : m.running with
        | none => rfl
        | some r => rw [hm] at this; cases this
      have h1 := (inv hcfg hr).idle hrun
      have h2 := spawned_pending hr a1 T pm a2 htr hpub
      rw [h1] at h2; cases h2

/-- **C57**, as a promise to the user: whoever obtains a manager while no load is running and uses it for less than the delay, calls only functions of plugins
that have not been freed. -/
theorem C57_usable {cfg : Config} (hcfg : cfg.OK) {m : Machine} (h : Reachable cfg m) {a b : History} {t : Nat} {x : Option Nat} {pm : Manager}
    (he : m.trace = a ++ (t, .observed x) :: b) (hidle : openCall a = none) (hpm : lastPublished a = some pm)
    (hnow : m.now < t + max 15000000000 cfg.freeDelay) {i : Nat} (hi : i ∈ pm.insts) : i ∉ m.begins := by
  intro hb
  obtain ⟨e, hm, he'⟩ := List.mem_filterMap.mp hb
  obtain ⟨⟨t', e'⟩, ht, rfl⟩ := List.mem_map.mp hm
  have : e' = .freeBegin i := by cases e' <;> simp at he'; subst he'; rfl
  subst this
  have hle := (times h).2 _ ht
  rw [he] at ht
  rcases List.mem_append.mp ht with ht | ht
  · refine hist (cfg := cfg) (Q := fun a e => (∃ x, e.2 = .observed x) → openCall a = none → ∀ pm, lastPublished a = some pm → ∀ i ∈ pm.insts, ∀ t', (t', Ev.freeBegin i) ∉ a) ?_
      h a (t, .observed x) _ he ⟨x, rfl⟩ hidle pm hpm i hi t' ht
    intro m e hr _ _ hop pm hcur i hi t' hf
    have hinv := inv hcfg hr
    have hrun : m.running = none := by
      have := openCall_eq hr
      rw [hop] at this
      cases hm : m.running with
      | none => rfl
      | some r => rw [hm] at this; cases this
    have hb : i ∈ m.begins := List.mem_filterMap.mpr ⟨_, List.mem_map.mpr ⟨_, hf, rfl⟩, rfl⟩
    have hone : m.once i = true := by
      have h1 := hinv.core.begins_eq i
      have h2 := List.count_pos_iff.mpr hb
      cases ho : m.once i with
      | true => rfl
      | false => rw [ho] at h1; simp at h1; omega
    refine (hinv.core.once_ok i hone).2 ?_
    have hc : m.current = some pm := by rw [current_eq hr, hcur]
    unfold Machine.holds Machine.curHeld
    simp [hinv.idle hrun, Machine.currentInsts, hc, hi]
  · rcases List.mem_cons.mp ht with ht | ht
    · cases ht
    · obtain ⟨b1, b2, rfl⟩ := List.append_of_mem ht
      have := C57_grace_period_idle hcfg h he hidle hpm hi
      simp only at hle
      omega

end

/-! ### The hypotheses are met by real executions -/

section Examples
open Demo
attribute [local instance] Demo.rt

/-- Load, look at the manager, reload (`app` has changed), let the delayed free run. -/
def stepsGrace : List Label := steps1 ++ [.read] ++ callSteps (.reload none) env2 16 ++ [.tick 15000000000] ++ List.replicate 4 (.free 0)
/-- The same, up to one nanosecond before the delay is over. -/
def stepsUse : List Label := steps1 ++ [.read] ++ callSteps (.reload none) env2 16 ++ [.tick 14999999999]

/-- In a reachable history the manager with instances 1 and 2 is read while no load runs, and `OnFree` of 1 begins later. -/
example : ∃ m : Machine, Reachable cfg m ∧ ∃ a b c t t' x pm, m.trace = a ++ (t, .observed x) :: (b ++ (t', .freeBegin 1) :: c) ∧ openCall a = none ∧
    lastPublished a = some pm ∧ 1 ∈ pm.insts := by
  refine ⟨after cfg stepsGrace, after_reachable (by decide +kernel), ?_⟩
  have hobs : ((after cfg stepsGrace).trace[22]?).any (fun e => match e.2 with | .observed _ => true | _ => false) = true := by decide +kernel
  have hbeg : (((after cfg stepsGrace).trace.drop 23)[18]?).any (fun e => match e.2 with | .freeBegin 1 => true | _ => false) = true := by decide +kernel
  have key : ∀ (tr : History) n x, tr[n]? = some x → tr = tr.take n ++ x :: tr.drop (n + 1) := by
    intro tr n x hx
    obtain ⟨h, rfl⟩ := List.getElem?_eq_some_iff.mp hx
    rw [List.getElem_cons_drop h, List.take_append_drop]
  have hop : openCall ((after cfg stepsGrace).trace.take 22) = none := by
    have : (openCall ((after cfg stepsGrace).trace.take 22)).isNone = true := by decide +kernel
    exact Option.isNone_iff_eq_none.mp this
  have hcur : ((lastPublished ((after cfg stepsGrace).trace.take 22)).map (fun pm => pm.insts.contains 1)) = some true := by decide +kernel
  cases h1 : (after cfg stepsGrace).trace[22]? with
  | none => rw [h1] at hobs; cases hobs
  | some x =>
    cases h2 : ((after cfg stepsGrace).trace.drop 23)[18]? with
    | none => rw [h2] at hbeg; cases hbeg
    | some y =>
      rw [h1] at hobs; rw [h2] at hbeg
      obtain ⟨t, x⟩ := x
      obtain ⟨t', y⟩ := y
      cases x with
      | observed x =>
        cases y with
        | freeBegin j =>
          have hj : j = 1 := by
            simp only [Option.any_some] at hbeg
            split at hbeg
            · rename_i h; simpa using h
            · cases hbeg
          subst hj
          obtain ⟨pm, hp, hi⟩ := Option.map_eq_some_iff.mp hcur
          refine ⟨_, _, _, t, t', x, pm, (key _ 22 _ h1).trans (congrArg _ (congrArg _ (key _ 18 _ h2))), hop, hp, ?_⟩
          simpa using hi
        | _ => cases hbeg
      | _ => cases hobs

/-- The manager is in use for almost the whole delay; two plugins, none freed. -/
example : Reachable cfg (after cfg stepsUse) ∧ (after cfg stepsUse).now = 14999999999 ∧ (after cfg stepsUse).begins = [] :=
  ⟨after_reachable (by decide +kernel), by decide +kernel, by decide +kernel⟩

/-- C38: three managers have been published in `m5`. -/
example : Reachable cfg m5 ∧ (published m5.trace).map Manager.mid = [0, 3, 7] := ⟨m5_reachable, by decide +kernel⟩

end Examples

end Hotswap
