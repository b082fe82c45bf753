import Verif.Proofs.SimLoad

/-!
# The machine commutes with `ess`
-/

namespace Hotswap

section
variable [GoRuntime]

omit [GoRuntime] in
theorem Manager.releaseList_ess (pm : Manager) : pm.ess.releaseList = pm.releaseList := by
  simp only [Manager.releaseList, Manager.ess, List.map_map]
  rfl

theorem Manager.insts_ess (pm : Manager) : pm.ess.insts = pm.insts := by
  simp only [Manager.insts, Manager.ess, GoMap.vals_mapV, List.map_map]
  rfl

theorem Machine.currentInsts_ess (m : Machine) : m.ess.currentInsts = m.currentInsts := by
  unfold Machine.currentInsts
  simp only [Machine.ess]
  cases m.current with
  | none => rfl
  | some pm => exact pm.insts_ess

theorem Machine.log_ess (m : Machine) (e : Ev) : m.ess.log e.ess = (m.log e).ess := by
  simp [Machine.ess, Machine.log]

theorem Machine.perform_ess (cfg : Config) (m : Machine) (a : Act) : m.ess.perform cfg.ess a.ess = (m.perform cfg a).ess := by
  cases a with
  | spawnFree om => simp only [Act.ess, Machine.perform, om.releaseList_ess]; rfl
  | publish pm => simp only [Act.ess, Machine.perform, m.currentInsts_ess]; rfl
  | _ => rfl

theorem Machine.dec_ess (m : Machine) (i : Nat) : m.ess.dec i = ((m.dec i).1.ess, (m.dec i).2) := rfl

theorem Machine.onceDo_ess (m : Machine) (i : Nat) : m.ess.onceDo i = ((m.onceDo i).1.ess, (m.onceDo i).2) := by
  unfold Machine.onceDo
  by_cases h : m.once i = true
  · rw [if_pos h, if_pos (show m.ess.once i = true from h)]
  · rw [if_neg h, if_neg (show ¬ m.ess.once i = true from h)]
    simp [Machine.ess, Machine.log, Ev.ess]

theorem heldAfter_ess (h : List Nat) (a : Act) : heldAfter h a.ess = heldAfter h a := by cases a <;> rfl

theorem Machine.stepRunning_ess (cfg : Config) (m : Machine) (r : Running) : m.ess.stepRunning cfg.ess r.ess = (m.stepRunning cfg r).map Machine.ess := by
  unfold Machine.stepRunning
  have hp : r.ess.phase = r.phase := rfl
  have ht : r.ess.todo = r.todo.map Act.ess := rfl
  rw [hp, ht]
  cases r.phase with
  | zero i => simp only [m.onceDo_ess]; rfl
  | inside i =>
    simp only [Machine.onFreeDone]
    rw [show m.ess.log (.freeEnd i) = (m.log (.freeEnd i)).ess from m.log_ess (.freeEnd i)]
    rfl
  | idle =>
    cases r.todo with
    | nil => rfl
    | cons a rest =>
      cases a with
      | release i =>
        simp only [List.map_cons, Act.ess]
        rw [show m.ess.log (.act (.release i)) = (m.log (.act (.release i))).ess from m.log_ess (.act (.release i)), Machine.dec_ess]
        rfl
      | spawnFree om =>
        simp only [List.map_cons, Act.ess]
        rw [show m.ess.log (.act (.spawnFree om.ess)) = (m.log (.act (.spawnFree om))).ess from m.log_ess (.act (.spawnFree om)),
          show ∀ m : Machine, m.ess.perform cfg.ess (.spawnFree om.ess) = (m.perform cfg (.spawnFree om)).ess from fun m => m.perform_ess cfg (.spawnFree om)]
        rfl
      | publish pm =>
        simp only [List.map_cons, Act.ess]
        rw [show m.ess.log (.act (.publish pm.ess)) = (m.log (.act (.publish pm))).ess from m.log_ess (.act (.publish pm)),
          show ∀ m : Machine, m.ess.perform cfg.ess (.publish pm.ess) = (m.perform cfg (.publish pm)).ess from fun m => m.perform_ess cfg (.publish pm)]
        rfl
      | _ =>
        simp only [List.map_cons, Act.ess]
        rw [show ∀ x, m.ess.log (.act x) = m.ess.log (.act x) from fun _ => rfl]
        simp [Machine.ess, Machine.log, Machine.perform, Ev.ess, Act.ess, Running.ess, heldAfter]

theorem Machine.stepFree_ess (m : Machine) (n : Nat) : m.ess.stepFree n = (m.stepFree n).map Machine.ess := by
  unfold Machine.stepFree
  have hf : m.ess.frees = m.frees := rfl
  have hn : m.ess.now = m.now := rfl
  rw [hf, hn]
  cases m.frees[n]? with
  | none => rfl
  | some t =>
    simp only
    cases t.phase with
    | zero i => simp only [m.onceDo_ess]; rfl
    | inside i =>
      simp only [Machine.onFreeDone]
      rw [show m.ess.log (.freeEnd i) = (m.log (.freeEnd i)).ess from m.log_ess (.freeEnd i)]
      rfl
    | idle =>
      cases t.todo with
      | nil => rfl
      | cons i rest =>
        simp only
        split
        · rfl
        · rw [Machine.dec_ess]; rfl

theorem refused_ess (cfg : Config) (k : Kind) : refused cfg.ess k = refused cfg k := by
  cases k with
  | load => rfl
  | reload x => simp [refused, Config.ess]

theorem Machine.step_ess (cfg : Config) (m : Machine) (l : Label) : m.ess.step cfg.ess l.ess = (m.step cfg l).map Machine.ess := by
  cases l with
  | call k env =>
    simp only [Label.ess, Machine.step, refused_ess]
    split
    · exact congrArg some (m.log_ess .refused)
    · have hr : m.ess.running = m.running.map Running.ess := rfl
      rw [hr]
      cases m.running with
      | some r => rfl
      | none =>
        simp only [Option.map_none]
        rw [show m.ess.current = m.current.map Manager.ess from rfl, show m.ess.next = m.next from rfl, plan_ess,
          show m.ess.log (.called k) = (m.log (.called k)).ess from m.log_ess (.called k)]
        rfl
  | act =>
    simp only [Label.ess, Machine.step]
    have hr : m.ess.running = m.running.map Running.ess := rfl
    rw [hr]
    cases m.running with
    | none => rfl
    | some r => exact m.stepRunning_ess cfg r
  | ret =>
    simp only [Label.ess, Machine.step]
    have hr : m.ess.running = m.running.map Running.ess := rfl
    rw [hr]
    cases m.running with
    | none => rfl
    | some r =>
      simp only [Option.map_some]
      have h1 : r.ess.todo.isEmpty = r.todo.isEmpty := by simp [Running.ess]
      have h2 : r.ess.phase = r.phase := rfl
      rw [h1, h2]
      split
      · rw [show m.ess.log (.returned r.ess.kind r.ess.res) = (m.log (.returned r.kind r.res)).ess from m.log_ess (.returned r.kind r.res)]
        rfl
      · rfl
  | free n => exact m.stepFree_ess n
  | tick d => rfl
  | read =>
    simp only [Label.ess, Machine.step]
    have : (m.ess.current.map (·.mid)) = m.current.map (·.mid) := by
      simp only [Machine.ess, Option.map_map]
      rfl
    rw [this]
    exact congrArg some (m.log_ess (.observed _))
  | readCounter => exact congrArg some (m.log_ess (.counted _))

end

end Hotswap
