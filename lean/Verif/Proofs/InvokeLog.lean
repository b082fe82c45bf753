import Verif.Spec.InvokeLog

/-! Proofs about Model/InvokeLog. -/

namespace Hotswap

namespace InvokeLog

/-- What one plugin adds. -/
structure OneCall (w : UserCode) (name : Str) (params : List Val) (p : Plugin) (h ev : InvHist) (e : Ending) : Prop where
  calls : ev.filterMap (fun x => x.1.called?) = [(p.inst, name, params)]
  answers : ∀ a x b, ev = a ++ x :: b → x.2 = w (h ++ a) x.1
  own : ∀ x ∈ ev, x.1 = .call p.inst name params ∨ x.1 = .logErr p.inst ∨ x.1 = .logPanic p.inst
  errors : (∃ a, (InvEv.logErr p.inst, a) ∈ ev) ↔ (InvEv.call p.inst name params, Answer.err) ∈ ev
  panics : (∃ a, (InvEv.logPanic p.inst, a) ∈ ev) ↔ (InvEv.call p.inst name params, Answer.panics) ∈ ev ∨ (InvEv.logErr p.inst, Answer.panics) ∈ ev
  ends : match e with
    | .returns => ∀ x ∈ ev, ¬ Fatal x
    | .panics => ∃ ev0 x, ev = ev0 ++ [x] ∧ Fatal x ∧ x.2 ≠ .exits ∧ ∀ y ∈ ev0, ¬ Fatal y
    | .goexit => ∃ ev0 x, ev = ev0 ++ [x] ∧ Fatal x ∧ x.2 = .exits ∧ ∀ y ∈ ev0, ¬ Fatal y

/-- The answers in a list of events. -/
theorem answers_cons {w : UserCode} {h : InvHist} {x : InvEv × Answer} {r : InvHist} (hx : x.2 = w h x.1) (hr : ∀ a y b, r = a ++ y :: b → y.2 = w (h ++ [x] ++ a) y.1) :
    ∀ a y b, x :: r = a ++ y :: b → y.2 = w (h ++ a) y.1 := by
  intro a y b e
  cases a with
  | nil =>
    simp at e
    rw [← e.1, List.append_nil]
    exact hx
  | cons z a =>
    simp at e
    have := hr a y b e.2
    rw [← e.1]
    simpa using this

theorem answers_nil {w : UserCode} {h : InvHist} : ∀ a y b, ([] : InvHist) = a ++ y :: b → y.2 = w (h ++ a) y.1 := by
  intro a y b e; simp at e

theorem report_spec (w : UserCode) (p : Plugin) (h : InvHist) : ∃ a, (reportPanic w p h).2 = h ++ [(.logPanic p.inst, a)] ∧ a = w h (.logPanic p.inst) ∧
    (reportPanic w p h).1 = (match a with | .ok => .returns | .err => .returns | .panics => .panics | .panicsNil => .panics | .exits => .goexit) := by
  refine ⟨w h (.logPanic p.inst), ?_, rfl, ?_⟩ <;> unfold reportPanic askUser <;> cases w h (.logPanic p.inst) <;> rfl

theorem one (w : UserCode) (name : Str) (params : List Val) (p : Plugin) (h : InvHist) :
    ∃ ev, (invokeImplX w name params p h).2 = h ++ ev ∧ OneCall w name params p h ev (invokeImplX w name params p h).1 := by
  unfold invokeImplX askUser
  cases hc : w h (.call p.inst name params) with
  | ok => exact ⟨_, rfl, by simp [InvEv.called?], answers_cons hc.symm answers_nil, by simp, by simp, by simp, by simp [Fatal]⟩
  | panicsNil => exact ⟨_, rfl, by simp [InvEv.called?], answers_cons hc.symm answers_nil, by simp, by simp, by simp, by simp [Fatal]⟩
  | exits => exact ⟨_, rfl, by simp [InvEv.called?], answers_cons hc.symm answers_nil, by simp, by simp, by simp, [], _, rfl, .inl rfl, rfl, by simp⟩
  | panics =>
    simp only
    obtain ⟨a, h1, h2, h3⟩ := report_spec w p (h ++ [(.call p.inst name params, .panics)])
    refine ⟨[(.call p.inst name params, .panics), (.logPanic p.inst, a)], by rw [h1]; simp, by simp [InvEv.called?], answers_cons hc.symm (answers_cons h2 answers_nil), by simp, by simp, by simp, ?_⟩
    rw [h3]
    cases a
    · simp [Fatal]
    · simp [Fatal]
    · exact ⟨[_], _, rfl, .inr ⟨_, rfl, .inl rfl⟩, by simp, by simp [Fatal]⟩
    · exact ⟨[_], _, rfl, .inr ⟨_, rfl, .inr rfl⟩, by simp, by simp [Fatal]⟩
    · exact ⟨[_], _, rfl, .inl rfl, rfl, by simp [Fatal]⟩
  | err =>
    simp only
    cases hd : w (h ++ [(.call p.inst name params, .err)]) (.logErr p.inst) with
    | ok => exact ⟨[(.call p.inst name params, .err), (.logErr p.inst, .ok)], by simp, by simp [InvEv.called?], answers_cons hc.symm (answers_cons hd.symm answers_nil), by simp, by simp, by simp, by simp [Fatal]⟩
    | err => exact ⟨[(.call p.inst name params, .err), (.logErr p.inst, .err)], by simp, by simp [InvEv.called?], answers_cons hc.symm (answers_cons hd.symm answers_nil), by simp, by simp, by simp, by simp [Fatal]⟩
    | panicsNil => exact ⟨[(.call p.inst name params, .err), (.logErr p.inst, .panicsNil)], by simp, by simp [InvEv.called?], answers_cons hc.symm (answers_cons hd.symm answers_nil), by simp, by simp, by simp, by simp [Fatal]⟩
    | exits => exact ⟨[(.call p.inst name params, .err), (.logErr p.inst, .exits)], by simp, by simp [InvEv.called?], answers_cons hc.symm (answers_cons hd.symm answers_nil), by simp, by simp, by simp, [_], _, rfl, .inl rfl, rfl, by simp [Fatal]⟩
    | panics =>
      simp only
      obtain ⟨a, h1, h2, h3⟩ := report_spec w p (h ++ [(.call p.inst name params, .err)] ++ [(.logErr p.inst, .panics)])
      refine ⟨[(.call p.inst name params, .err), (.logErr p.inst, .panics), (.logPanic p.inst, a)], by rw [h1]; simp, by simp [InvEv.called?], answers_cons hc.symm (answers_cons hd.symm (answers_cons h2 answers_nil)), by simp, by simp, by simp, ?_⟩
      rw [h3]
      cases a
      · simp [Fatal]
      · simp [Fatal]
      · exact ⟨[_, _], _, rfl, .inr ⟨_, rfl, .inl rfl⟩, by simp, by simp [Fatal]⟩
      · exact ⟨[_, _], _, rfl, .inr ⟨_, rfl, .inr rfl⟩, by simp, by simp [Fatal]⟩
      · exact ⟨[_, _], _, rfl, .inl rfl, rfl, by simp [Fatal]⟩

theorem mem_called {ev : InvHist} {i : Nat} {n : Str} {ps : List Val} {a : Answer} (h : (InvEv.call i n ps, a) ∈ ev) : (i, n, ps) ∈ ev.filterMap (fun x => x.1.called?) :=
  List.mem_filterMap.mpr ⟨_, h, rfl⟩

theorem each (w : UserCode) (name : Str) (params : List Val) (ps : List Plugin) (hn : (ps.map (·.inst)).Nodup) (h : InvHist) :
    ∃ ev pre post, (eachLoop w name params ps h).2 = h ++ ev ∧ CalledUntil w name params ps h ev (eachLoop w name params ps h).1 pre post := by
  induction ps generalizing h with
  | nil => exact ⟨[], [], [], by simp [eachLoop], rfl, rfl, answers_nil, by simp, by simp, by simp [eachLoop]⟩
  | cons p r ih =>
    rw [List.map_cons, List.nodup_cons] at hn
    obtain ⟨ev, h1, g⟩ := one w name params p h
    have iown : ∀ i, i ≠ p.inst → (∀ a, (InvEv.logErr i, a) ∉ ev) ∧ (∀ a, (InvEv.logPanic i, a) ∉ ev) ∧ ∀ a, (InvEv.call i name params, a) ∉ ev := by
      intro i hi
      refine ⟨fun a hm => ?_, fun a hm => ?_, fun a hm => ?_⟩ <;> (rcases g.own _ hm with e | e | e <;> simp at e <;> exact hi (by simp [e]))
    have stop : ∀ e, e ≠ .returns → (invokeImplX w name params p h).1 = e → ∃ ev pre post, (invokeImplX w name params p h).2 = h ++ ev ∧ CalledUntil w name params (p :: r) h ev e pre post := by
      intro e he hx
      rw [hx] at g
      refine ⟨ev, [p], r, h1, rfl, by rw [g.calls]; rfl, g.answers, ?_, ?_, ?_⟩
      · intro i
        by_cases hi : i = p.inst
        · subst hi; exact g.errors
        · obtain ⟨o1, _, o3⟩ := iown i hi
          exact ⟨fun ⟨a, ha⟩ => absurd ha (o1 a), fun ha => absurd ha (o3 _)⟩
      · intro i
        by_cases hi : i = p.inst
        · subst hi; exact g.panics
        · obtain ⟨o1, o2, o3⟩ := iown i hi
          exact ⟨fun ⟨a, ha⟩ => absurd ha (o2 a), fun ha => ha.elim (fun ha => absurd ha (o3 _)) (fun ha => absurd ha (o1 _))⟩
      · cases e
        · exact absurd rfl he
        · exact g.ends
        · exact g.ends
    unfold eachLoop
    rcases hx : invokeImplX w name params p h with ⟨e, h'⟩
    rw [hx] at h1 g stop
    cases e with
    | panics => exact stop .panics (by simp) rfl
    | goexit => exact stop .goexit (by simp) rfl
    | returns =>
      simp only at h1 g ⊢
      subst h1
      obtain ⟨ev', pre, post, h2, k⟩ := ih hn.2 (h ++ ev)
      have hrest : ∀ x ∈ ev', ∃ q ∈ pre, x.1 = .call q.inst name params ∨ x.1 = .logErr q.inst ∨ x.1 = .logPanic q.inst := by
        intro x hx
        obtain ⟨e, a⟩ := x
        have hcall : ∀ i n ps a, (InvEv.call i n ps, a) ∈ ev' → ∃ q ∈ pre, i = q.inst ∧ n = name ∧ ps = params := by
          intro i n ps a hm
          have := mem_called hm
          rw [k.calls] at this
          obtain ⟨q, hq, e⟩ := List.mem_map.mp this
          injection e with e1 e2
          injection e2 with e2 e3
          exact ⟨q, hq, e1.symm, e2.symm, e3.symm⟩
        cases e with
        | call i n ps =>
          obtain ⟨q, hq, rfl, rfl, rfl⟩ := hcall i n ps a hx
          exact ⟨q, hq, .inl rfl⟩
        | logErr i =>
          obtain ⟨q, hq, rfl, _⟩ := hcall _ _ _ _ ((k.errors i).mp ⟨a, hx⟩)
          exact ⟨q, hq, .inr (.inl rfl)⟩
        | logPanic i =>
          rcases (k.panics i).mp ⟨a, hx⟩ with hm | hm
          · obtain ⟨q, hq, rfl, _⟩ := hcall _ _ _ _ hm
            exact ⟨q, hq, .inr (.inr rfl)⟩
          · obtain ⟨q, hq, rfl, _⟩ := hcall _ _ _ _ ((k.errors i).mp ⟨_, hm⟩)
            exact ⟨q, hq, .inr (.inr rfl)⟩
      have hpn : ∀ q ∈ pre, q.inst ≠ p.inst := by
        intro q hq e
        exact hn.1 (List.mem_map.mpr ⟨q, by rw [k.split]; exact List.mem_append_left _ hq, e⟩)
      have iown' : (∀ a, (InvEv.logErr p.inst, a) ∉ ev') ∧ (∀ a, (InvEv.logPanic p.inst, a) ∉ ev') ∧ ∀ a, (InvEv.call p.inst name params, a) ∉ ev' := by
        refine ⟨fun a hm => ?_, fun a hm => ?_, fun a hm => ?_⟩ <;> obtain ⟨q, hq, e⟩ := hrest _ hm <;> rcases e with e | e | e <;> simp at e <;> exact hpn q hq (by simp [e])
      refine ⟨ev ++ ev', p :: pre, post, by rw [h2, List.append_assoc], by rw [k.split]; rfl, by rw [List.filterMap_append, g.calls, k.calls]; rfl, ?_, ?_, ?_, ?_⟩
      · intro a x b e
        rcases List.append_eq_append_iff.mp e with ⟨c, h3, h4⟩ | ⟨c, h3, h4⟩
        · rw [h3, ← List.append_assoc]
          exact k.answers c x b h4
        · cases c with
          | nil =>
            simp only [List.append_nil] at h3
            rw [← h3]
            have := k.answers [] x b (by simpa using h4.symm)
            simpa using this
          | cons y c =>
            simp only [List.cons_append, List.cons.injEq] at h4
            obtain ⟨rfl, _⟩ := h4
            exact g.answers a x c h3
      · intro i
        simp only [List.mem_append]
        by_cases hi : i = p.inst
        · subst hi
          obtain ⟨o1, o2, o3⟩ := iown'
          constructor
          · rintro ⟨a, ha | ha⟩
            · exact .inl (g.errors.mp ⟨a, ha⟩)
            · exact absurd ha (o1 a)
          · rintro (ha | ha)
            · obtain ⟨a, ha⟩ := g.errors.mpr ha
              exact ⟨a, .inl ha⟩
            · exact absurd ha (o3 _)
        · obtain ⟨o1, o2, o3⟩ := iown i hi
          constructor
          · rintro ⟨a, ha | ha⟩
            · exact absurd ha (o1 a)
            · exact .inr ((k.errors i).mp ⟨a, ha⟩)
          · rintro (ha | ha)
            · exact absurd ha (o3 _)
            · obtain ⟨a, ha⟩ := (k.errors i).mpr ha
              exact ⟨a, .inr ha⟩
      · intro i
        simp only [List.mem_append]
        by_cases hi : i = p.inst
        · subst hi
          obtain ⟨o1, o2, o3⟩ := iown'
          constructor
          · rintro ⟨a, ha | ha⟩
            · exact (g.panics.mp ⟨a, ha⟩).imp .inl .inl
            · exact absurd ha (o2 a)
          · intro ha
            have : (InvEv.call p.inst name params, Answer.panics) ∈ ev ∨ (InvEv.logErr p.inst, Answer.panics) ∈ ev :=
              ha.imp (fun h => h.resolve_right (o3 _)) (fun h => h.resolve_right (o1 _))
            obtain ⟨a, ha⟩ := g.panics.mpr this
            exact ⟨a, .inl ha⟩
        · obtain ⟨o1, o2, o3⟩ := iown i hi
          constructor
          · rintro ⟨a, ha | ha⟩
            · exact absurd ha (o2 a)
            · exact ((k.panics i).mp ⟨a, ha⟩).imp .inr .inr
          · intro ha
            have : (InvEv.call i name params, Answer.panics) ∈ ev' ∨ (InvEv.logErr i, Answer.panics) ∈ ev' :=
              ha.imp (fun h => h.resolve_left (o3 _)) (fun h => h.resolve_left (o1 _))
            obtain ⟨a, ha⟩ := (k.panics i).mpr this
            exact ⟨a, .inr ha⟩
      · have key := k.ends
        have g1 : ∀ x ∈ ev, ¬ Fatal x := g.ends
        cases he : (eachLoop w name params r (h ++ ev)).1 with
        | returns =>
          rw [he] at key
          exact ⟨key.1, fun x hx => (List.mem_append.mp hx).elim (g1 x) (key.2 x)⟩
        | panics =>
          rw [he] at key
          obtain ⟨ev0, x, k1, k2, k3, k4⟩ := key
          exact ⟨ev ++ ev0, x, by rw [k1, List.append_assoc], k2, k3, fun y hy => (List.mem_append.mp hy).elim (g1 y) (k4 y)⟩
        | goexit =>
          rw [he] at key
          obtain ⟨ev0, x, k1, k2, k3, k4⟩ := key
          exact ⟨ev ++ ev0, x, by rw [k1, List.append_assoc], k2, k3, fun y hy => (List.mem_append.mp hy).elim (g1 y) (k4 y)⟩

theorem back_eq (w : UserCode) (name : Str) (params : List Val) (all : List Plugin) (n : Nat) (hn : n ≤ all.length) (h : InvHist) :
    backLoopX w name params all n h = eachLoop w name params (all.take n).reverse h := by
  induction n generalizing h with
  | zero => rfl
  | succ n ih =>
    have hlt : n < all.length := hn
    rw [List.take_add_one, List.getElem?_eq_getElem hlt]
    simp only [Option.toList_some, List.reverse_append, List.reverse_cons, List.reverse_nil, List.nil_append, List.singleton_append]
    unfold backLoopX eachLoop
    rw [List.getElem?_eq_getElem hlt]
    simp only
    rcases invokeImplX w name params all[n] h with ⟨e, h'⟩
    cases e with
    | returns => exact ih (Nat.le_of_lt hlt) h'
    | panics => rfl
    | goexit => rfl

/-- If it does not return, some plugin has been called last. -/
theorem each_stop (w : UserCode) (name : Str) (params : List Val) (ps : List Plugin) (h : InvHist) (he : (eachLoop w name params ps h).1 ≠ .returns) :
    ∃ pre p post, ps = pre ++ p :: post ∧ ∃ ev ev', (eachLoop w name params ps h).2 = h ++ ev ++ ev' ∧ ev.filterMap (fun x => x.1.called?) = pre.map (fun p => (p.inst, name, params)) ∧
      OneCall w name params p (h ++ ev) ev' (eachLoop w name params ps h).1 := by
  induction ps generalizing h with
  | nil => exact absurd rfl he
  | cons p r ih =>
    obtain ⟨ev, h1, g⟩ := one w name params p h
    unfold eachLoop at he ⊢
    rcases hx : invokeImplX w name params p h with ⟨e, h'⟩
    rw [hx] at he h1 g
    cases e with
    | panics => exact ⟨[], p, r, rfl, [], ev, by simpa using h1, rfl, by simpa using g⟩
    | goexit => exact ⟨[], p, r, rfl, [], ev, by simpa using h1, rfl, by simpa using g⟩
    | returns =>
      simp only at he h1 g ⊢
      subst h1
      obtain ⟨pre, q, post, e1, ev1, ev2, e2, e3, e4⟩ := ih (h ++ ev) he
      refine ⟨p :: pre, q, post, by rw [e1]; rfl, ev ++ ev1, ev2, by rw [e2]; simp, ?_, ?_⟩
      · rw [List.filterMap_append, g.calls, e3]; rfl
      · rw [← List.append_assoc]; exact e4

end InvokeLog

end Hotswap
