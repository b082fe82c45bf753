import Verif.Props.StaticClash

/-!
# C82 for whole histories
-/

namespace Hotswap

section
variable [GoRuntime]

/-- What one static load does with instance `i`. -/
theorem ClashView.about {cfg : Config} {env : Env} {sps : GoMap StaticPlugin} {n0 : Nat} {p : Plan} (h : ClashView cfg env sps n0 p) :
    (∀ i, i ∉ p.built.insts → Hotswap.about i p.acts <+: threeActs i) ∧ (∀ i, Hotswap.about i p.acts ≠ [] → n0 ≤ i ∧ i < p.next) ∧ (∀ om, .spawnFree om ∉ p.acts) ∧ n0 ≤ p.next := by
  obtain ⟨k, ext, rel, tr⟩ := h.trace
  have hrel : ∀ i ∈ rel, i ∈ p.built.insts := by
    intro i hi
    by_cases hp : ∃ pm, .publish pm ∈ p.acts
    · rw [(tr.ok hp).1] at hi; cases hi
    · exact (tr.bad hp).mem_iff.mp hi
  have hsplit : ∀ i, Hotswap.about i p.acts = Hotswap.about i (createdActs (n0 + 1) k) ++ Hotswap.about i ext ++ Hotswap.about i (rel.map Act.release) := by
    intro i; rw [tr.acts]; unfold Hotswap.about; simp only [List.filter_append]
  have hr3 : ∀ i, i ∉ p.built.insts → Hotswap.about i (rel.map Act.release) = [] := by
    intro i hi
    refine about_nil ?_
    intro a ha hc
    obtain ⟨j, hj, rfl⟩ := List.mem_map.mp ha
    cases hc
    exact hi (hrel _ hj)
  refine ⟨?_, ?_, ?_, by have := tr.next; omega⟩
  · intro i hi
    rw [hsplit, hr3 i hi, List.append_nil, about_created]
    by_cases hc : n0 + 1 ≤ i ∧ i < n0 + 1 + k
    · rw [if_pos hc, about_nil]
      · simp
      · intro a ha he
        rcases (tr.mid a ha).1 i he with h | ⟨h, _⟩
        · exact hi h
        · omega
    · rw [if_neg hc, List.nil_append]
      exact (tr.own i hi).trans ⟨[.register i], rfl⟩
  · intro i hne
    by_cases hi : i ∈ p.built.insts
    · exact tr.range i hi
    · rw [hsplit, hr3 i hi, List.append_nil, about_created] at hne
      by_cases hc : n0 + 1 ≤ i ∧ i < n0 + 1 + k
      · have := tr.next; omega
      · rw [if_neg hc, List.nil_append] at hne
        have : ∃ a ∈ ext, a.inst? = some i := by
          by_contra hcon
          exact hne (about_nil (fun a ha he => hcon ⟨a, ha, he⟩))
        obtain ⟨a, ha, he⟩ := this
        rcases (tr.mid a ha).1 i he with h | ⟨h, h2⟩
        · exact absurd h hi
        · omega
  · intro om hm
    rw [tr.acts] at hm
    rcases List.mem_append.mp hm with hm | hm
    · rcases List.mem_append.mp hm with hm | hm
      · unfold createdActs threeActs at hm; simp at hm
      · exact (tr.mid _ hm).2.2 om rfl
    · obtain ⟨j, _, h⟩ := List.mem_map.mp hm; cases h

/-- What has happened to instance `i` and what is planned. -/
def fate (m : Machine) (i : Nat) : List Act :=
  about i (actsOf m.trace) ++ (match m.running with | some r => about i r.todo | none => [])

/-- Invariant of programs with statically linked plugins. -/
structure DropInv (m : Machine) : Prop where
  frees : m.frees = []
  spawn : ∀ r, m.running = some r → ∀ om, .spawnFree om ∉ r.todo
  fresh : ∀ i, m.next ≤ i → fate m i = []
  dropped : ∀ i, (∀ pm ∈ m.builts, i ∉ pm.insts) → fate m i <+: threeActs i
  freed : ∀ i, i ∈ m.begins ∨ (∃ r, m.running = some r ∧ (r.phase = .zero i ∨ r.phase = .inside i)) → ∃ pm ∈ m.builts, i ∈ pm.insts

omit [GoRuntime] in
theorem actsOf_log (tr : History) (n : Nat) (e : Ev) : actsOf (tr ++ [(n, e)]) = actsOf tr ++ (match e with | .act a => [a] | _ => []) := by
  unfold actsOf
  rw [List.filterMap_append]
  cases e <;> rfl

omit [GoRuntime] in
theorem about_append (i : Nat) (a b : List Act) : about i (a ++ b) = about i a ++ about i b := List.filter_append ..

omit [GoRuntime] in
theorem begins_of_log (m : Machine) (e : Ev) : (m.log e).begins = m.begins ++ (match e with | .freeBegin i => [i] | _ => []) := by
  unfold Machine.log Machine.begins Machine.events
  rw [List.map_append, List.filterMap_append]
  cases e <;> rfl

theorem dropInv {cfg : Config} {sps : GoMap StaticPlugin} (hst : cfg.static = some sps) {m : Machine} (h : Reachable cfg m) : DropInv m := by
  induction h with
  | init => exact ⟨rfl, (fun r h => nomatch h), (fun i _ => rfl), (fun i _ => List.nil_prefix), by rintro i (h | ⟨r, h, _⟩) <;> cases h⟩
  | @step m m' l hr hs ih =>
    -- an event that is no action and no call of OnFree
    have hlog : ∀ e : Ev, (∀ a, e ≠ .act a) → (∀ i, e ≠ .freeBegin i) → DropInv (m.log e) := by
      intro e h1 h2
      have hf : ∀ i, fate (m.log e) i = fate m i := by
        intro i
        unfold fate Machine.log
        simp only
        rw [actsOf_log]
        cases e with
        | act a => exact absurd rfl (h1 a)
        | _ => simp
      have hb : (m.log e).begins = m.begins := by
        rw [begins_of_log]
        cases e with
        | freeBegin i => exact absurd rfl (h2 i)
        | _ => simp
      exact ⟨ih.frees, ih.spawn, (fun i hi => (hf i).trans (ih.fresh i hi)), (fun i hi => by rw [hf]; exact ih.dropped i hi), by rw [hb]; exact ih.freed⟩
    cases l with
    | call k env =>
      unfold Machine.step at hs
      simp only at hs
      split at hs
      · cases hs
        exact hlog _ (fun a h => nomatch h) (fun i h => nomatch h)
      · rename_i hk
        cases hrun : m.running with
        | some r => rw [hrun] at hs; cases hs
        | none =>
          rw [hrun] at hs
          cases k with
          | reload o => unfold refused at hk; rw [hst] at hk; exact absurd rfl hk
          | load =>
            obtain ⟨a1, a2, a3, a4⟩ := (clash_view hst env m.current m.next).about
            generalize plan cfg env .load m.current m.next = p at *
            cases hs
            have hf : ∀ i, fate { m.log (.called .load) with next := p.next, builts := p.built :: m.builts, running := some { kind := .load, todo := p.acts, res := p.res, phase := .idle, held := [] } } i
                = fate m i ++ about i p.acts := by
              intro i
              unfold fate Machine.log
              simp only [hrun]
              rw [actsOf_log]; simp
            have hb : ({ m.log (.called .load) with next := p.next, builts := p.built :: m.builts, running := some { kind := .load, todo := p.acts, res := p.res, phase := .idle, held := [] } } : Machine).begins
                = m.begins := by
              have := begins_of_log m (.called .load)
              rw [List.append_nil] at this
              exact this
            refine ⟨ih.frees, ?_, ?_, ?_, ?_⟩
            · intro r hr om; cases hr; exact a3 om
            · intro i hi
              rw [hf, ih.fresh i (Nat.le_trans a4 hi), List.nil_append]
              by_contra hne
              have := (a2 i hne).2
              have hi' : p.next ≤ i := hi
              omega
            · intro i hi
              rw [hf]
              by_cases hn : m.next ≤ i
              · rw [ih.fresh i hn, List.nil_append]
                exact a1 i (hi p.built (List.mem_cons_self ..))
              · have : about i p.acts = [] := by
                  by_contra hne
                  exact hn (a2 i hne).1
                rw [this, List.append_nil]
                exact ih.dropped i (fun pm hpm => hi pm (List.mem_cons_of_mem _ hpm))
            · intro i hi
              rw [hb] at hi
              rcases hi with hi | ⟨r, hr, hph⟩
              · obtain ⟨pm, hpm, hin⟩ := ih.freed i (.inl hi)
                exact ⟨pm, List.mem_cons_of_mem _ hpm, hin⟩
              · cases hr
                rcases hph with h | h <;> cases h
    | act =>
      unfold Machine.step at hs
      simp only at hs
      cases hrun : m.running with
      | none => rw [hrun] at hs; cases hs
      | some r =>
        rw [hrun] at hs
        simp only at hs
        unfold Machine.stepRunning at hs
        cases hph : r.phase with
        | zero i =>
          rw [hph] at hs
          simp only [Machine.onceDo] at hs
          have hin := ih.freed i (.inr ⟨r, hrun, .inl hph⟩)
          by_cases ho : m.once i = true
          · rw [if_pos ho] at hs
            cases hs
            refine ⟨ih.frees, ?_, ?_, ?_, ?_⟩
            · intro r' hr' om; cases hr'; exact ih.spawn r hrun om
            · intro j hj
              have := ih.fresh j hj
              unfold fate at this ⊢
              rw [hrun] at this
              exact this
            · intro j hj
              have := ih.dropped j hj
              unfold fate at this ⊢
              rw [hrun] at this
              exact this
            · intro j hj
              rcases hj with hj | ⟨r', hr', hph'⟩
              · exact ih.freed j (.inl hj)
              · cases hr'; rcases hph' with h | h <;> cases h
          · rw [if_neg ho] at hs
            cases hs
            refine ⟨ih.frees, ?_, ?_, ?_, ?_⟩
            · intro r' hr' om; cases hr'; exact ih.spawn r hrun om
            · intro j hj
              have := ih.fresh j hj
              unfold fate at this ⊢
              unfold Machine.log
              rw [hrun] at this
              simp only at this ⊢
              rw [actsOf_log]; simpa using this
            · intro j hj
              have := ih.dropped j hj
              unfold fate at this ⊢
              unfold Machine.log
              rw [hrun] at this
              simp only at this ⊢
              rw [actsOf_log]; simpa using this
            · intro j hj
              rcases hj with hj | ⟨r', hr', hph'⟩
              · have hb := begins_of_log { m with once := upd m.once i true } (.freeBegin i)
                have hj' : j ∈ m.begins ++ [i] := by
                  rw [show m.begins ++ [i] = _ from hb.symm]; exact hj
                rcases List.mem_append.mp hj' with hj' | hj'
                · exact ih.freed j (.inl hj')
                · simp at hj'; subst hj'; exact hin
              · cases hr'
                rcases hph' with h | h <;> cases h
                exact hin
        | inside i =>
          rw [hph] at hs
          simp only [Machine.onFreeDone] at hs
          cases hs
          refine ⟨ih.frees, ?_, ?_, ?_, ?_⟩
          · intro r' hr' om; cases hr'; exact ih.spawn r hrun om
          · intro j hj
            have := ih.fresh j hj
            unfold fate at this ⊢
            unfold Machine.log
            rw [hrun] at this
            simp only at this ⊢
            rw [actsOf_log]; simpa using this
          · intro j hj
            have := ih.dropped j hj
            unfold fate at this ⊢
            unfold Machine.log
            rw [hrun] at this
            simp only at this ⊢
            rw [actsOf_log]; simpa using this
          · intro j hj
            rcases hj with hj | ⟨r', hr', hph'⟩
            · have hb := begins_of_log m (.freeEnd i)
              rw [List.append_nil] at hb
              have hj' : j ∈ m.begins := by rw [← hb]; exact hj
              exact ih.freed j (.inl hj')
            · cases hr'; rcases hph' with h | h <;> cases h
        | idle =>
          rw [hph] at hs
          simp only at hs
          cases htodo : r.todo with
          | nil => rw [htodo] at hs; cases hs
          | cons a rest =>
            rw [htodo] at hs
            have hsp : ∀ om, .spawnFree om ∉ rest := fun om hm => ih.spawn r hrun om (by rw [htodo]; exact List.mem_cons_of_mem _ hm)
            have hmove : ∀ j, about j (actsOf (m.trace ++ [(m.now, .act a)])) ++ about j rest = fate m j := by
              intro j
              unfold fate
              rw [hrun, actsOf_log, about_append]
              simp only
              rw [htodo, List.append_assoc, ← about_append]
              rfl
            have hb := begins_of_log m (.act a)
            rw [List.append_nil] at hb
            by_cases hrel : ∃ i, a = .release i
            · obtain ⟨i, rfl⟩ := hrel
              have hin : ∃ pm ∈ m.builts, i ∈ pm.insts := by
                by_contra hcon
                have hpre := ih.dropped i (fun pm hpm hi => hcon ⟨pm, hpm, hi⟩)
                have : Act.release i ∈ fate m i := by
                  unfold fate
                  rw [hrun]
                  refine List.mem_append_right _ ?_
                  unfold about
                  rw [List.mem_filter, htodo]
                  exact ⟨by simp, by simp [Act.inst?]⟩
                have := hpre.subset this
                simp [threeActs] at this
              simp only [Machine.dec] at hs
              cases hs
              refine ⟨ih.frees, ?_, ?_, ?_, ?_⟩
              · intro r' hr' om; cases hr'; exact hsp om
              · intro j hj
                exact (hmove j).trans (ih.fresh j hj)
              · intro j hj
                have := ih.dropped j hj
                rw [← hmove j] at this
                exact this
              · intro j hj
                rcases hj with hj | ⟨r', hr', hph'⟩
                · have hj' : j ∈ m.begins := by rw [← hb]; exact hj
                  exact ih.freed j (.inl hj')
                · cases hr'
                  simp only at hph'
                  split at hph'
                  · rcases hph' with h | h <;> cases h
                  · rcases hph' with h | h <;> cases h
                    exact hin
            · have hstep : m' = { (m.log (.act a)).perform cfg a with running := some { r with todo := rest, phase := .idle, held := heldAfter r.held a } } := by
                cases a with
                | release i => exact absurd ⟨i, rfl⟩ hrel
                | _ => cases hs; simp only [hph]
              have hperf : ∀ x : Machine, (x.perform cfg a).trace = x.trace ∧ (x.perform cfg a).next = x.next ∧ (x.perform cfg a).builts = x.builts ∧ ((∀ om, a ≠ .spawnFree om) → (x.perform cfg a).frees = x.frees) := by
                intro x
                cases a <;> refine ⟨rfl, rfl, rfl, ?_⟩ <;> intro h <;> first | rfl | exact absurd rfl (h _)
              obtain ⟨p1, p2, p3, p4⟩ := hperf (m.log (.act a))
              have hnospawn : ∀ om, a ≠ .spawnFree om := by
                rintro om rfl
                exact ih.spawn r hrun om (by rw [htodo]; simp)
              have hfate : ∀ j, fate m' j = fate m j := by
                intro j
                rw [hstep]
                unfold fate
                simp only
                rw [p1]
                exact hmove j
              have hbeg : m'.begins = m.begins := by
                rw [hstep]
                unfold Machine.begins Machine.events
                simp only
                rw [p1]
                exact hb
              have hbu : m'.builts = m.builts := by rw [hstep]; exact p3
              have hnx : m'.next = m.next := by rw [hstep]; exact p2
              refine ⟨?_, ?_, ?_, ?_, ?_⟩
              · rw [hstep]; exact (p4 hnospawn).trans ih.frees
              · intro r' hr' om; rw [hstep] at hr'; cases hr'; exact hsp om
              · intro j hj; rw [hfate]; exact ih.fresh j (hnx ▸ hj)
              · intro j hj; rw [hfate]; exact ih.dropped j (hbu ▸ hj)
              · intro j hj
                rw [hbu]
                rw [hbeg] at hj
                rcases hj with hj | ⟨r', hr', hph'⟩
                · exact ih.freed j (.inl hj)
                · rw [hstep] at hr'; cases hr'
                  rcases hph' with h | h <;> cases h
    | ret =>
      unfold Machine.step at hs
      simp only at hs
      cases hrun : m.running with
      | none => rw [hrun] at hs; cases hs
      | some r =>
        rw [hrun] at hs
        simp only at hs
        split at hs
        · rename_i hc
          cases hs
          have ht : r.todo = [] := by
            simp only [Bool.and_eq_true, List.isEmpty_iff] at hc; exact hc.1
          have hl := hlog (.returned r.kind r.res) (fun a h => nomatch h) (fun i h => nomatch h)
          have hf : ∀ i, fate { m.log (.returned r.kind r.res) with running := none } i = fate (m.log (.returned r.kind r.res)) i := by
            intro i
            have hr' : (m.log (.returned r.kind r.res)).running = some r := hrun
            unfold fate
            rw [hr']
            simp only [ht]
            rfl
          exact ⟨hl.frees, (fun r h => nomatch h), (fun i hi => (hf i).trans (hl.fresh i hi)), (fun i hi => by rw [hf]; exact hl.dropped i hi), by
            rintro i (hi | ⟨r, h, _⟩)
            · exact hl.freed i (.inl hi)
            · cases h⟩
        · cases hs
    | free n =>
      unfold Machine.step Machine.stepFree at hs
      simp only at hs
      rw [ih.frees] at hs
      simp at hs
    | tick d =>
      cases hs
      exact ⟨ih.frees, ih.spawn, ih.fresh, ih.dropped, ih.freed⟩
    | read =>
      cases hs
      exact hlog _ (fun a h => nomatch h) (fun i h => nomatch h)
    | readCounter =>
      cases hs
      exact hlog _ (fun a h => nomatch h) (fun i h => nomatch h)

/-- **C82.** In every history of a program with statically linked plugins: an instance that was registered and is in none of the managers that were built was asked `Reloadable` and
`Export`; no other function of it has been called, `OnFree` in particular. -/
theorem C82_never_freed {cfg : Config} {sps : GoMap StaticPlugin} (hst : cfg.static = some sps) {m : Machine} (h : Reachable cfg m) {i : Nat} (hr : i ∈ m.regs)
    (hi : ∀ pm ∈ m.builts, i ∉ pm.insts) : i ∉ m.begins ∧ m.hooksOf i = [.reloadable, .export] := by
  have inv := dropInv hst h
  have hnb : i ∉ m.begins := by
    intro hb
    obtain ⟨pm, hpm, hin⟩ := inv.freed i (.inl hb)
    exact hi pm hpm hin
  refine ⟨hnb, ?_⟩
  have key : ∀ tr : History, (∀ e ∈ tr, e.2 ≠ .freeBegin i) →
      (((tr.map (·.2)).filterMap evHook).filter (fun e => e.1 = i)).map (·.2) = ((about i (actsOf tr)).filterMap hookOf).map (·.2) := by
    intro tr
    induction tr with
    | nil => intro _; rfl
    | cons e r ih =>
      intro hn
      have hr := ih (fun e he => hn e (List.mem_cons_of_mem _ he))
      obtain ⟨tm, e⟩ := e
      cases e with
      | act a =>
        have hc : actsOf ((tm, Ev.act a) :: r) = a :: actsOf r := rfl
        rw [hc]
        have ha : about i (a :: actsOf r) = if a.inst? = some i then a :: about i (actsOf r) else about i (actsOf r) := by
          unfold about
          rw [List.filter_cons]
          by_cases h : a.inst? = some i <;> simp [h]
        rw [ha, List.map_cons]
        cases hh : hookOf a with
        | none =>
          rw [List.filterMap_cons_none (by exact hh), hr]
          split
          · rw [List.filterMap_cons_none hh]
          · rfl
        | some jg =>
          obtain ⟨j, g⟩ := jg
          rw [List.filterMap_cons_some (by exact hh), hookOf_inst hh, List.filter_cons]
          by_cases hj : j = i
          · subst hj
            rw [if_pos (by simp), if_pos rfl, List.filterMap_cons_some hh, List.map_cons, List.map_cons, hr]
          · rw [if_neg (by simpa using hj), if_neg (by simpa using hj), hr]
      | freeBegin j =>
        have hj : j ≠ i := by
          rintro rfl
          exact hn _ (List.mem_cons_self ..) rfl
        have hc : actsOf ((tm, Ev.freeBegin j) :: r) = actsOf r := rfl
        rw [hc, List.map_cons, List.filterMap_cons_some (f := evHook) (a := Ev.freeBegin j) (b := (j, Hook.onFree)) rfl, List.filter_cons, if_neg (by simpa using hj), hr]
      | _ => exact hr
  have hno : ∀ e ∈ m.trace, e.2 ≠ .freeBegin i := by
    intro e he hc
    apply hnb
    unfold Machine.begins Machine.events
    rw [List.mem_filterMap]
    exact ⟨e.2, List.mem_map.mpr ⟨e, he, rfl⟩, by rw [hc]⟩
  unfold Machine.hooksOf Machine.hooks Machine.events
  rw [key m.trace hno]
  have hreg : Act.register i ∈ about i (actsOf m.trace) := by
    unfold Machine.regs Machine.events at hr
    obtain ⟨e, he, hc⟩ := List.mem_filterMap.mp hr
    obtain ⟨te, hte, rfl⟩ := List.mem_map.mp he
    unfold about
    rw [List.mem_filter]
    refine ⟨?_, by simp [Act.inst?]⟩
    unfold actsOf
    rw [List.mem_filterMap]
    refine ⟨te, hte, ?_⟩
    split at hc
    · rename_i j hj; cases hc; rw [hj]
    · cases hc
  have hpre : about i (actsOf m.trace) <+: threeActs i := (List.prefix_append _ _).trans (inv.dropped i hi)
  obtain ⟨suf, hsuf⟩ := hpre
  have : about i (actsOf m.trace) = threeActs i := by
    generalize about i (actsOf m.trace) = l at *
    unfold threeActs at hsuf ⊢
    match l, hsuf, hreg with
    | [], _, h => cases h
    | [a], h, h' =>
      simp at h h'
      rw [← h'] at h
      exact absurd h.1 (by simp)
    | [a, b], h, h' =>
      simp at h h'
      rcases h' with h' | h'
      · rw [← h'] at h; exact absurd h.1 (by simp)
      · rw [← h'] at h; exact absurd h.2.1 (by simp)
    | [a, b, c], h, _ => simp at h ⊢; exact ⟨h.1, h.2.1, h.2.2.1⟩
    | a :: b :: c :: d :: r, h, _ => simp at h
  rw [this]
  rfl

end

namespace Demo
attribute [local instance] rt

/-- A load with two plugins whose names differ in case only, to its end; then the same call again. -/
def clashed : Machine := after tcfg (callSteps .load env0 (plan tcfg env0 .load none 0).acts.length ++ callSteps .load env0 (plan tcfg env0 .load none 4).acts.length)

/-- The hypotheses of C82_never_freed are met: instance 1 has been registered, is in no manager that was built, and (the conclusion) has had two of its functions called. -/
example : Reachable tcfg clashed ∧ 1 ∈ clashed.regs ∧ (∀ pm ∈ clashed.builts, 1 ∉ pm.insts) ∧ clashed.hooksOf 1 = [.reloadable, .export] := by
  have h : (run tcfg .init (callSteps .load env0 (plan tcfg env0 .load none 0).acts.length ++ callSteps .load env0 (plan tcfg env0 .load none 4).acts.length)).isSome = true ∧
      clashed.regs.contains 1 = true ∧ clashed.builts.all (fun pm => !pm.insts.contains 1) = true := by decide +kernel
  have hr := after_reachable h.1
  have h1 : 1 ∈ clashed.regs := List.contains_iff_mem.mp h.2.1
  have h2 : ∀ pm ∈ clashed.builts, 1 ∉ pm.insts := by
    intro pm hpm hc
    have := List.all_eq_true.mp h.2.2 pm hpm
    rw [List.contains_iff_mem.mpr hc] at this
    cases this
  exact ⟨hr, h1, h2, (C82_never_freed rfl hr h1 h2).2⟩

end Demo

end Hotswap
