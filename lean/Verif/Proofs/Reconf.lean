import Verif.Spec.Reconf
import Verif.Proofs.Drain
import Verif.Props.Hooks

/-! Invariants of histories in which options are applied to the swapper. -/

namespace Hotswap

variable [GoRuntime]

theorem config_ok {st : Settings} (h : ∀ sps, st.static = some sps → (sps.vals.map (fun sp => name2key sp.name)).Nodup) : st.config.OK := h

/-- The settings only ever contain proper maps. -/
theorem apply_ok {st : Settings} {o : Opt} (h : st.config.OK) (ho : o.Proper) : (o.apply st).config.OK := by
  cases o with
  | withStaticPlugins m =>
    intro sps hs
    change m = some sps at hs
    subst hs
    exact ho
  | _ => exact h

theorem newSwapper_ok {os : List Opt} (h : ∀ o ∈ os, o.Proper) : (newSwapper os).config.OK := by
  unfold newSwapper
  have key : ∀ (os : List Opt) (st : Settings), st.config.OK → (∀ o ∈ os, o.Proper) → (os.foldl Opt.apply st).config.OK := by
    intro os
    induction os with
    | nil => intro st h _; exact h
    | cons o r ih => intro st hst ho; exact ih _ (apply_ok hst (ho o (by simp))) (fun o' h' => ho o' (by simp [h']))
  exact key os _ (by intro sps hs; cases hs) h

/-- The view of `nap`. -/
theorem nap_cases (m : Machine) (n d : Nat) : m.nap n d = m ∨ ∃ x t y, m.frees = x ++ t :: y ∧ n = x.length ∧ m.nap n d = { m with frees := x ++ { t with due := m.now + d } :: y } := by
  unfold Machine.nap
  cases ht : m.frees[n]? with
  | none => exact .inl rfl
  | some t =>
    obtain ⟨x, y, h1, h2, h3⟩ := split_at ht
    exact .inr ⟨x, t, y, h1, h2, by simp only [h3]⟩

theorem InvL.nap {L : List Nat} {cfg : Config} {m : Machine} (h : InvL L cfg m) (n d : Nat) : InvL L cfg (m.nap n d) := by
  rcases nap_cases m n d with e | ⟨x, t, y, hf, _, e⟩
  · rw [e]; exact h
  rw [e]
  refine { core := ?_, cur := h.cur, idle := h.idle, frees := ?_, run := ?_, regsNodup := h.regsNodup, regsLt := h.regsLt, dyn := h.dyn, sound := h.sound }
  · have hc := h.core
    unfold Machine.CoreOK at hc ⊢
    have e1 : m.holds = Machine.holds { m with frees := x ++ { t with due := m.now + d } :: y } := by
      unfold Machine.holds
      rw [hf]
      simp
      rfl
    have e2 : m.zs = Machine.zs { m with frees := x ++ { t with due := m.now + d } :: y } := by
      unfold Machine.zs
      rw [hf]
      simp
    have e3 : m.ins = Machine.ins { m with frees := x ++ { t with due := m.now + d } :: y } := by
      unfold Machine.ins
      rw [hf]
      simp
    rw [← e1, ← e2, ← e3]
    exact hc
  · intro u hu
    change u ∈ x ++ _ :: y at hu
    rcases List.mem_append.mp hu with hu | hu
    · exact h.frees u (by rw [hf]; simp [hu])
    · rcases List.mem_cons.mp hu with rfl | hu
      · exact h.frees t (by rw [hf]; simp)
      · exact h.frees u (by rw [hf]; simp [hu])
  · intro r hr
    exact (h.run r hr).congr rfl rfl rfl rfl

theorem HookInv.nap {m : Machine} (h : HookInv m) (n d : Nat) : HookInv (m.nap n d) := by
  rcases nap_cases m n d with e | ⟨x, t, y, hf, _, e⟩
  · rw [e]; exact h
  rw [e]
  refine h.same rfl rfl rfl ?_
  intro u hu
  change u ∈ x ++ _ :: y at hu
  rcases List.mem_append.mp hu with hu | hu
  · exact ⟨u, by rw [hf]; simp [hu], fun _ h => h⟩
  · rcases List.mem_cons.mp hu with rfl | hu
    · exact ⟨t, by rw [hf]; simp, fun _ h => h⟩
    · exact ⟨u, by rw [hf]; simp [hu], fun _ h => h⟩

theorem ReadyInv.nap {m : Machine} (h : ReadyInv m) (n d : Nat) : ReadyInv (m.nap n d) := by
  rcases nap_cases m n d with e | ⟨x, t, y, hf, _, e⟩
  · rw [e]; exact h
  rw [e]
  exact h.same rfl (fun _ h => h) (fun r hr => ⟨r, hr, rfl⟩)

theorem LiveInv.nap {m : Machine} (h : LiveInv m) (n d : Nat) : LiveInv (m.nap n d) := by
  rcases nap_cases m n d with e | ⟨x, t, y, hf, _, e⟩
  · rw [e]; exact h
  rw [e]
  exact h.quiet (es := []) rfl (fun _ h => h) (by simp) (by simp)

theorem nap_frees_length (m : Machine) (n d : Nat) : (m.nap n d).frees.length = m.frees.length := by
  unfold Machine.nap
  split <;> simp

theorem nap_abandoned (m : Machine) (n d : Nat) : (m.nap n d).abandoned = m.abandoned := by
  unfold Machine.nap
  split <;> rfl

/-- What a step adds to the references that nobody gives back. -/
theorem abandoned_step {L : List Nat} {st : Settings} {m m' : Machine} {naps : List Nap} {l : Label} (h : InvL L st.config m) (hs : Step st.config m l m') :
    m'.abandoned = OMachine.loses ⟨st, m, naps⟩ (.go l) ++ m.abandoned := by
  have hrun : ∀ {m1 : Machine} {r : Running}, m.running = some r → (∀ pm rest, r.phase = .idle → r.todo ≠ .publish pm :: rest) → m1.abandoned = m.abandoned →
      m1.abandoned = OMachine.loses ⟨st, m, naps⟩ (.go .act) ++ m.abandoned := by
    intro m1 r hr hn ha
    unfold OMachine.loses
    rw [if_neg]
    · rw [ha]; rfl
    · rintro ⟨_, r', pm, rest, h1, h2, h3⟩
      change m.running = some r' at h1
      rw [hr] at h1
      injection h1 with h1
      subst h1
      exact hn pm rest h2 h3
  cases hs with
  | act r a rest run phase todo plain =>
    by_cases hp : ∃ pm, a = .publish pm
    · obtain ⟨pm, rfl⟩ := hp
      change (if m.pending.isSome then m.abandoned else m.currentInsts ++ m.abandoned) = _
      have hab : m.aboutToPublish := ⟨r, pm, rest, run, phase, todo⟩
      unfold OMachine.loses
      cases h.run r run with
      | fail pre rel todo' held idle res pending stage incs order =>
        rw [todo] at todo'
        rcases cons_of_append todo'.symm with ⟨pre', rfl, hr⟩ | ⟨_, hr⟩
        · have := stage _ (List.mem_cons_self ..); simp [Act.stage] at this
        · cases rel <;> simp at hr
      | ok pre new todo' held idle d res pending stage incs good built =>
        rw [todo] at todo'
        rcases cons_of_append todo'.symm with ⟨pre', rfl, hr⟩ | ⟨hpre, hr⟩
        · have := stage _ (List.mem_cons_self ..); simp [Act.stage] at this
        · rw [pending]
          change m.currentInsts ++ m.abandoned = _
          by_cases hst : st.static.isSome = true
          · rw [if_pos ⟨hst, hab⟩]
          · rw [if_neg (fun hh => hst hh.1)]
            have hst' : st.config.static.isSome = false := by
              change st.static.isSome = false
              simpa using hst
            rw [hst'] at hr
            cases hc : m.current with
            | none => simp [Machine.currentInsts, hc]
            | some om' => simp [hc, spawnActs] at hr
      | spawned new dyn todo' held idle d res pending good built =>
        rw [if_pos pending, if_neg (fun hh => by
          have h1 : st.static.isSome = true := hh.1
          have h2 : st.static.isSome = false := dyn
          rw [h1] at h2; cases h2)]
        rfl
      | last todo' held idle d res pending =>
        rw [todo] at todo'
        rcases todo' with todo' | todo'
        · cases hk : r.kind <;> rw [hk] at todo' <;> simp [countActs] at todo'
        · cases todo'
    · refine hrun run ?_ ?_
      · intro pm rest' _ ht
        rw [todo] at ht
        injection ht with ht
        exact hp ⟨pm, ht⟩
      · cases a <;> first | rfl | exact absurd ⟨_, rfl⟩ hp
  | release r i rest run phase todo =>
    refine hrun run (fun pm rest' _ ht => ?_) rfl
    rw [todo] at ht; cases ht
  | runSkip r i run phase once => exact hrun run (fun pm rest' hp _ => by rw [phase] at hp; cases hp) rfl
  | runBegin r i run phase once => exact hrun run (fun pm rest' hp _ => by rw [phase] at hp; cases hp) rfl
  | runEnd r i run phase => exact hrun run (fun pm rest' hp _ => by rw [phase] at hp; cases hp) rfl
  | _ => rfl

/-- The invariant of these histories. -/
structure OInv (os : List Opt) (L : List Nat) (s : OMachine) : Prop where
  inv : ∃ L0, InvL L0 s.set.config s.m
  lost : s.m.abandoned = L
  ok : s.set.config.OK
  hook : HookInv s.m
  ready : ReadyInv s.m
  live : LiveInv s.m
  len : s.naps.length = s.m.frees.length
  set : s.set = newSwapper os

theorem frees_length_step {cfg : Config} {m m' : Machine} {l : Label} (hs : Step cfg m l m') : m.frees.length ≤ m'.frees.length := by
  cases hs with
  | act r a rest run phase todo plain => cases a <;> simp [Machine.perform, Machine.log]
  | freeDec t x y frees => rw [frees]; simp
  | freeSkip t x y frees => rw [frees]; simp
  | freeBegin t x y frees => rw [frees]; simp
  | freeEnd t x y frees => rw [frees]; simp
  | _ => exact Nat.le_refl _

/-- The steps, one case each. -/
inductive OStep (s : OMachine) : OLabel → OMachine → Prop
  | go (l : Label) (m' : Machine) (awake : s.awake l = true) (step : Step s.set.config s.m l m') :
      OStep s (.go l) { s with m := m', naps := s.naps ++ List.replicate (m'.frees.length - s.naps.length) .fresh }
  | opt (o : Opt) (idle : s.m.running = none) : OStep s (.opt o) { s with set := o.apply s.set }
  | lookLong (n : Nat) (nap : s.naps[n]? = some .fresh) (long : 15000000000 < s.set.freeDelay) : OStep s (.look n) { s with naps := s.naps.set n .long }
  | lookShort (n : Nat) (nap : s.naps[n]? = some .fresh) (short : ¬ 15000000000 < s.set.freeDelay) :
      OStep s (.look n) { s with m := s.m.nap n 15000000000, naps := s.naps.set n .asleep }
  | take (n : Nat) (nap : s.naps[n]? = some .long) : OStep s (.take n) { s with m := s.m.nap n s.set.freeDelay.toNat, naps := s.naps.set n .asleep }

theorem ostep_view {s s' : OMachine} {l : OLabel} (h : s.step l = some s') : OStep s l s' := by
  unfold OMachine.step at h
  cases l with
  | go l =>
    simp only at h
    split at h
    · rename_i ha
      cases hm : s.m.step s.set.config l with
      | none => rw [hm] at h; cases h
      | some m' => rw [hm] at h; cases h; exact .go l m' ha (step_view hm)
    · cases h
  | opt o =>
    simp only at h
    split at h
    · cases h
    · rename_i hr; cases h; exact .opt o (by simpa using hr)
  | look n =>
    simp only at h
    split at h
    · rename_i hn
      split at h
      · rename_i hl; cases h; exact .lookLong n hn hl
      · rename_i hl; cases h; exact .lookShort n hn hl
    · cases h
  | take n =>
    simp only at h
    split at h
    · rename_i hn; cases h; exact .take n hn
    · cases h

theorem OInv.go {os : List Opt} {L : List Nat} {s s' : OMachine} {l : OLabel} (h : OInv os L s) (hl : ∀ o, l ≠ .opt o) (hs : OStep s l s') : OInv os (s.loses l ++ L) s' := by
  obtain ⟨L0, hi⟩ := h.inv
  cases hs with
  | go l m' awake step =>
    refine ⟨⟨L0, hi.step h.ok step⟩, ?_, h.ok, h.hook.step h.ok hi step, h.ready.step h.ok (fun om ho => (hi.cur om ho).1) step,
      h.live.step h.ok (fun om ho => (hi.cur om ho).1) step, ?_, h.set⟩
    · change m'.abandoned = _
      rw [abandoned_step (naps := s.naps) hi step, h.lost]
    · change (s.naps ++ List.replicate (m'.frees.length - s.naps.length) Nap.fresh).length = m'.frees.length
      have := frees_length_step step
      have := h.len
      simp; omega
  | opt o idle => exact absurd rfl (hl o)
  | lookLong n nap long => exact ⟨⟨L0, hi⟩, h.lost, h.ok, h.hook, h.ready, h.live, by simpa using h.len, h.set⟩
  | lookShort n nap short =>
    exact ⟨⟨L0, hi.nap _ _⟩, (nap_abandoned _ _ _).trans h.lost, h.ok, h.hook.nap _ _, h.ready.nap _ _, h.live.nap _ _, by simpa [nap_frees_length] using h.len, h.set⟩
  | take n nap =>
    exact ⟨⟨L0, hi.nap _ _⟩, (nap_abandoned _ _ _).trans h.lost, h.ok, h.hook.nap _ _, h.ready.nap _ _, h.live.nap _ _, by simpa [nap_frees_length] using h.len, h.set⟩

/-- At rest between two calls, the configuration plays no part in the invariant. -/
theorem InvL.reconf {L : List Nat} {cfg cfg' : Config} {m : Machine} (h : InvL L cfg m) (hr : m.running = none) : InvL m.abandoned cfg' m :=
  { h with run := (fun r hr' => by rw [hr] at hr'; cases hr'), dyn := fun _ => rfl }

theorem OInv.opt {os : List Opt} {L : List Nat} {s : OMachine} (h : OInv os L s) (o : Opt) (ho : o.Proper) (idle : s.m.running = none) : OInv (os ++ [o]) L { s with set := o.apply s.set } := by
  obtain ⟨L0, hi⟩ := h.inv
  refine ⟨⟨_, hi.reconf idle⟩, h.lost, apply_ok h.ok ho, h.hook, h.ready, h.live, h.len, ?_⟩
  change o.apply s.set = _
  rw [h.set]
  simp [newSwapper, List.foldl_append]

theorem oinv {ok : OMachine → Opt → Prop} {os : List Opt} {L : List Nat} {s : OMachine} (h : OReachable ok os L s) : OInv os L s := by
  induction h with
  | init os hos => exact ⟨⟨[], InvL.init _⟩, rfl, newSwapper_ok hos, HookInv.init, ReadyOf.init, LiveInv.init, rfl, rfl⟩
  | go l _ hl hs ih => exact ih.go hl (ostep_view hs)
  | opt o _ ho _ hs ih =>
    cases ostep_view hs with
    | opt _ idle => exact ih.opt o ho idle

end Hotswap

namespace Hotswap

variable [GoRuntime]

/-! ### The free delay -/

theorem spawns_log (m : Machine) (e : Ev) : spawns (m.log e).trace = spawns m.trace ++ (match e with | .act (.spawnFree om) => [(m.now, om)] | _ => []) := by
  unfold spawns Machine.log
  rw [List.filterMap_append]
  congr 1
  cases e with
  | act a => cases a <;> rfl
  | _ => rfl

/-- One delayed free. -/
structure DueOK (B now : Nat) (T : Nat) (t : FreeTask) (nap : Nap) : Prop where
  past : T ≤ now
  asleep : nap = .asleep → T + B ≤ t.due
  awake : nap ≠ .asleep → t.phase = .idle
  begun : t.phase ≠ .idle → T + B ≤ now

/-- All delayed frees. -/
structure DInv (B : Nat) (s : OMachine) : Prop where
  len : (spawns s.m.trace).length = s.m.frees.length
  due : ∀ (n T : Nat) (om : Manager) (t : FreeTask) (nap : Nap), (spawns s.m.trace)[n]? = some (T, om) → s.m.frees[n]? = some t → s.naps[n]? = some nap → DueOK B s.m.now T t nap
  long : Nap.long ∈ s.naps → (B : Int) ≤ s.set.freeDelay

theorem DueOK.later {B now now' T : Nat} {t : FreeTask} {nap : Nap} (h : DueOK B now T t nap) (hn : now ≤ now') : DueOK B now' T t nap :=
  ⟨Nat.le_trans h.past hn, h.asleep, h.awake, fun hp => Nat.le_trans (h.begun hp) hn⟩

theorem mem_fresh_append {naps : List Nap} {k : Nat} (h : Nap.long ∈ naps ++ List.replicate k .fresh) : Nap.long ∈ naps := by
  rcases List.mem_append.mp h with h | h
  · exact h
  · have := List.eq_of_mem_replicate h; cases this

/-- Nothing is new about the delayed frees. -/
theorem DInv.same {B : Nat} {s : OMachine} (h : DInv B s) (hlen : s.naps.length = s.m.frees.length) {m' : Machine} (ht : spawns m'.trace = spawns s.m.trace) (hf : m'.frees = s.m.frees) (hn : s.m.now ≤ m'.now) :
    DInv B { s with m := m', naps := s.naps ++ List.replicate (m'.frees.length - s.naps.length) .fresh } := by
  have e : s.naps ++ List.replicate (m'.frees.length - s.naps.length) Nap.fresh = s.naps := by rw [hf, hlen]; simp
  refine ⟨?_, ?_, fun hl => h.long (mem_fresh_append hl)⟩
  · change (spawns m'.trace).length = m'.frees.length
    rw [ht, hf]; exact h.len
  · intro n T om t nap h1 h2 h3
    change (spawns m'.trace)[n]? = _ at h1
    change m'.frees[n]? = _ at h2
    change (s.naps ++ _)[n]? = _ at h3
    rw [ht] at h1
    rw [hf] at h2
    rw [e] at h3
    exact (h.due n T om t nap h1 h2 h3).later hn

omit [GoRuntime] in
theorem getElem?_replaced {α : Type} {x y : List α} {a b c : α} {n : Nat} (h : (x ++ b :: y)[n]? = some c) : (n = x.length ∧ c = b) ∨ (n ≠ x.length ∧ (x ++ a :: y)[n]? = some c) := by
  by_cases hn : n = x.length
  · subst hn
    simp at h
    exact .inl ⟨rfl, h.symm⟩
  · refine .inr ⟨hn, ?_⟩
    rw [← h]
    rcases Nat.lt_or_gt_of_ne hn with hlt | hgt
    · rw [List.getElem?_append_left hlt, List.getElem?_append_left hlt]
    · rw [List.getElem?_append_right (by omega), List.getElem?_append_right (by omega)]
      obtain ⟨k, hk⟩ : ∃ k, n - x.length = k + 1 := ⟨n - x.length - 1, by omega⟩
      rw [hk]; simp

/-- A free goroutine that has slept does a step. -/
theorem DInv.free {B : Nat} {s : OMachine} (h : DInv B s) (hlen : s.naps.length = s.m.frees.length) {m' : Machine} {t t' : FreeTask} {x y : List FreeTask} (hx : s.m.frees = x ++ t :: y)
    (hnap : s.naps[x.length]? = some .asleep) (ht : spawns m'.trace = spawns s.m.trace) (hf : m'.frees = x ++ t' :: y) (hn : m'.now = s.m.now) (hd : t'.due = t.due)
    (hb : t'.phase ≠ .idle → t.due ≤ s.m.now ∨ t.phase ≠ .idle) :
    DInv B { s with m := m', naps := s.naps ++ List.replicate (m'.frees.length - s.naps.length) .fresh } := by
  have e : s.naps ++ List.replicate (m'.frees.length - s.naps.length) Nap.fresh = s.naps := by rw [hf, hlen, hx]; simp
  refine ⟨?_, ?_, fun hl => h.long (mem_fresh_append hl)⟩
  · change (spawns m'.trace).length = m'.frees.length
    rw [ht, hf, h.len, hx]; simp
  · intro n T om u nap h1 h2 h3
    change (spawns m'.trace)[n]? = _ at h1
    change m'.frees[n]? = _ at h2
    change (s.naps ++ _)[n]? = _ at h3
    rw [ht] at h1
    rw [hf] at h2
    rw [e] at h3
    change DueOK B m'.now T u nap
    rw [hn]
    rcases getElem?_replaced (a := t) h2 with ⟨rfl, rfl⟩ | ⟨hne, h2⟩
    · rw [hnap] at h3
      injection h3 with h3
      subst h3
      have ho := h.due x.length T om t .asleep h1 (by rw [hx]; simp) hnap
      refine ⟨ho.past, fun _ => by rw [hd]; exact ho.asleep rfl, fun hh => absurd rfl hh, fun hp => ?_⟩
      rcases hb hp with h4 | h4
      · exact Nat.le_trans (ho.asleep rfl) h4
      · exact ho.begun h4
    · exact h.due n T om u nap h1 (by rw [hx]; exact h2) h3

theorem nap_frees_set (m : Machine) (n d : Nat) {t : FreeTask} (ht : m.frees[n]? = some t) : (m.nap n d).frees = m.frees.set n { t with due := m.now + d } := by
  unfold Machine.nap; rw [ht]

theorem nap_trace (m : Machine) (n d : Nat) : (m.nap n d).trace = m.trace ∧ (m.nap n d).now = m.now := by
  unfold Machine.nap; split <;> exact ⟨rfl, rfl⟩

/-- A free goroutine falls asleep. -/
theorem DInv.sleeps {B : Nat} {s : OMachine} (h : DInv B s) (hlen : s.naps.length = s.m.frees.length) {n d : Nat} {nap : Nap} (hnap : s.naps[n]? = some nap) (hna : nap ≠ .asleep) (hd : B ≤ d) :
    DInv B { s with m := s.m.nap n d, naps := s.naps.set n .asleep } := by
  obtain ⟨t, ht⟩ : ∃ t, s.m.frees[n]? = some t := by
    obtain ⟨hlt, _⟩ := List.getElem?_eq_some_iff.mp hnap
    exact ⟨_, List.getElem?_eq_getElem (by omega)⟩
  obtain ⟨e1, e2⟩ := nap_trace s.m n d
  have e3 := nap_frees_set s.m n d ht
  refine ⟨?_, ?_, ?_⟩
  · change (spawns (s.m.nap n d).trace).length = (s.m.nap n d).frees.length
    rw [e1, nap_frees_length]; exact h.len
  · intro k T om u np h1 h2 h3
    change (spawns (s.m.nap n d).trace)[k]? = _ at h1
    change (s.m.nap n d).frees[k]? = _ at h2
    change (s.naps.set n .asleep)[k]? = _ at h3
    change DueOK B (s.m.nap n d).now T u np
    rw [e1] at h1
    rw [e2]
    rw [e3] at h2
    by_cases hk : n = k
    · subst hk
      rw [List.getElem?_set_self (List.getElem?_eq_some_iff.mp ht).1] at h2
      cases h2
      have ho := h.due n T om t nap h1 ht hnap
      have := ho.past
      have hid := ho.awake hna
      rw [List.getElem?_set_self (List.getElem?_eq_some_iff.mp hnap).1] at h3
      cases h3
      exact ⟨ho.past, fun _ => by change T + _ ≤ s.m.now + d; omega, fun hh => absurd rfl hh, fun hh => absurd hid hh⟩
    · rw [List.getElem?_set_ne hk] at h2 h3
      exact h.due k T om u np h1 h2 h3
  · intro hl
    rcases List.mem_or_eq_of_mem_set hl with hl | hl
    · exact h.long hl
    · cases hl

theorem dinv {ok : OMachine → Opt → Prop} {B : Nat}
    (hB : ∀ s o, ok s o → (B : Int) ≤ (o.apply s.set).delay → (B : Int) ≤ s.set.delay ∧ (Nap.long ∈ s.naps → (B : Int) ≤ s.set.freeDelay → (B : Int) ≤ (o.apply s.set).freeDelay))
    {os : List Opt} {L : List Nat} {s : OMachine} (h : OReachable ok os L s) : (B : Int) ≤ s.set.delay → DInv B s := by
  induction h with
  | init os hos => exact fun _ => ⟨rfl, fun n T om t nap h1 => by simp [spawns, Machine.init] at h1, fun h => by cases h⟩
  | @opt os L s s' o hr ho hok hs ih =>
    intro hb
    cases ostep_view hs with
    | opt _ idle =>
      obtain ⟨h1, h2⟩ := hB s o hok hb
      have ih := ih h1
      exact ⟨ih.len, ih.due, fun hl => h2 hl (ih.long hl)⟩
  | @go os L s s' l hr hl hs ih =>
    intro hb
    have hlen := (oinv hr).len
    have hset : s'.set = s.set := by
      cases ostep_view hs with
      | opt o _ => exact absurd rfl (hl o)
      | _ => rfl
    rw [hset] at hb
    have ih := ih hb
    unfold Settings.delay at hb
    cases ostep_view hs with
    | opt o _ => exact absurd rfl (hl o)
    | lookLong n nap long =>
      refine ⟨ih.len, ?_, fun _ => (by rw [if_pos long] at hb; exact hb)⟩
      intro k T om t np h1 h2 h3
      change (s.naps.set n .long)[k]? = _ at h3
      by_cases hk : n = k
      · subst hk
        rw [List.getElem?_set_self (List.getElem?_eq_some_iff.mp nap).1] at h3
        cases h3
        have ho := ih.due n T om t .fresh h1 h2 nap
        exact ⟨ho.past, fun hh => (by cases hh), fun _ => ho.awake (by simp), ho.begun⟩
      · rw [List.getElem?_set_ne hk] at h3
        exact ih.due k T om t np h1 h2 h3
    | lookShort n nap short => exact ih.sleeps hlen nap (by simp) (by rw [if_neg short] at hb; omega)
    | take n nap =>
      refine ih.sleeps hlen nap (by simp) ?_
      have := ih.long (List.mem_of_getElem? nap)
      omega
    | go l m' awake step =>
      have hasleep : ∀ k, l = .free k → s.naps[k]? = some .asleep := by
        rintro k rfl
        simpa [OMachine.awake] using awake
      cases step with
      | refused k env h => exact ih.same hlen (by rw [spawns_log]; simp) rfl (Nat.le_refl _)
      | call k env h run => exact ih.same hlen (by change spawns (s.m.log (.called k)).trace = _; rw [spawns_log]; simp) rfl (Nat.le_refl _)
      | act r a rest run phase todo plain =>
        by_cases hsp : ∃ om, a = .spawnFree om
        · obtain ⟨om, rfl⟩ := hsp
          have hsn : spawns (s.m.log (.act (.spawnFree om))).trace = spawns s.m.trace ++ [(s.m.now, om)] := by rw [spawns_log]
          refine ⟨?_, ?_, fun hl => ih.long (mem_fresh_append hl)⟩
          · change (spawns (s.m.log (.act (.spawnFree om))).trace).length = (s.m.frees ++ [_]).length
            rw [hsn]; simp [ih.len]
          · intro k T om' t np h1 h2 h3
            change (spawns (s.m.log (.act (.spawnFree om))).trace)[k]? = _ at h1
            change (s.m.frees ++ [_])[k]? = _ at h2
            change (s.naps ++ List.replicate ((s.m.frees ++ [_]).length - s.naps.length) .fresh)[k]? = _ at h3
            rw [hsn] at h1
            have hl0 := ih.len
            rw [List.length_append, hlen] at h3
            have e1 : s.m.frees.length + [({ due := s.m.now + s.set.config.delay, todo := om.releaseList, phase := .idle } : FreeTask)].length - s.m.frees.length = 1 := by simp
            have h3' : (s.naps ++ [Nap.fresh])[k]? = some np := by
              rw [← h3]
              congr 2
              rw [show ∀ z : FreeTask, s.m.frees.length + [z].length - s.m.frees.length = 1 from fun z => by simp]
              rfl
            by_cases hk : k < s.m.frees.length
            · rw [List.getElem?_append_left (by omega)] at h1 h2 h3'
              exact ih.due k T om' t np h1 h2 h3'
            · rw [List.getElem?_append_right (by omega)] at h1 h2 h3'
              obtain ⟨hz, hz'⟩ := List.getElem?_eq_some_iff.mp h1
              have hk0 : k = s.m.frees.length := by simp at hz; omega
              subst hk0
              simp [hl0] at h1
              simp at h2
              simp [hlen] at h3'
              obtain ⟨rfl, rfl⟩ := h1
              subst h2 h3'
              exact ⟨Nat.le_refl _, fun hh => (by cases hh), fun _ => rfl, fun hh => absurd rfl hh⟩
        · refine ih.same hlen ?_ ?_ (by cases a <;> exact Nat.le_refl _)
          · have e : spawns (s.m.log (.act a)).trace = spawns s.m.trace := by
              rw [spawns_log]
              cases a <;> first | exact absurd ⟨_, rfl⟩ hsp | simp
            rw [← e]
            cases a <;> rfl
          · cases a <;> first | rfl | exact absurd ⟨_, rfl⟩ hsp
      | release r i rest run phase todo =>
        exact ih.same hlen (by change spawns (s.m.log (.act (.release i))).trace = _; rw [spawns_log]; simp) rfl (Nat.le_refl _)
      | runSkip r i run phase once => exact ih.same hlen rfl rfl (Nat.le_refl _)
      | runBegin r i run phase once => exact ih.same hlen (by change spawns (s.m.log (.freeBegin i)).trace = _; rw [spawns_log]; simp) rfl (Nat.le_refl _)
      | runEnd r i run phase => exact ih.same hlen (by change spawns (s.m.log (.freeEnd i)).trace = _; rw [spawns_log]; simp) rfl (Nat.le_refl _)
      | ret r run todo phase => exact ih.same hlen (by change spawns (s.m.log (.returned r.kind r.res)).trace = _; rw [spawns_log]; simp) rfl (Nat.le_refl _)
      | freeDec t x y frees phase i rest todo due => exact ih.free hlen frees (hasleep _ rfl) rfl rfl rfl rfl (fun _ => .inl due)
      | freeSkip t x y frees i phase once => exact ih.free hlen frees (hasleep _ rfl) rfl rfl rfl rfl (fun hh => absurd rfl hh)
      | freeBegin t x y frees i phase once =>
        exact ih.free hlen frees (hasleep _ rfl) (by change spawns (s.m.log (.freeBegin i)).trace = _; rw [spawns_log]; simp) rfl rfl rfl (fun _ => .inr (by rw [phase]; simp))
      | freeEnd t x y frees i phase =>
        exact ih.free hlen frees (hasleep _ rfl) (by change spawns (s.m.log (.freeEnd i)).trace = _; rw [spawns_log]; simp) rfl rfl rfl (fun hh => absurd rfl hh)
      | tick d => exact ih.same hlen rfl rfl (Nat.le_add_right _ _)
      | read => exact ih.same hlen (by rw [spawns_log]; simp) rfl (Nat.le_refl _)
      | readCounter => exact ih.same hlen (by rw [spawns_log]; simp) rfl (Nat.le_refl _)

end Hotswap
