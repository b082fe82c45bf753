import Verif.Spec.Logging

/-! Proofs about Model/FreeLog. -/

namespace Hotswap

variable [GoRuntime]

namespace FreeLog

structure OneFree (p : Plugin) (s s' : FreeSt) (esc : Bool) (nl : List (FreeLine × Bool)) : Prop where
  lines : s'.lines = s.lines ++ nl
  refs : ∀ i, s'.refs i = if i = p.inst then s.refs i - 1 else s.refs i
  used : ∀ i, i ≠ p.inst → s'.used i = s.used i
  announced : nl.filterMap freeingName = if s.refs p.inst ≤ 1 then [p.name] else []
  called : s'.called = s.called ++ if s.refs p.inst ≤ 1 ∧ s.used p.inst = false ∧ (FreeLine.freeing p.name, false) ∈ nl then [p.inst] else []
  own : ∀ n b, (FreeLine.failed n, b) ∈ nl → n = p.name
  failed : (∃ b, (FreeLine.failed p.name, b) ∈ nl) ↔ s.refs p.inst ≤ 1 ∧ ((FreeLine.freeing p.name, true) ∈ nl ∨ s.used p.inst = false ∧ p.code.onFreePanics = true)
  all : esc = false → ∀ n, (FreeLine.failed n, true) ∉ nl
  stop : esc = true → ∃ nl0, nl = nl0 ++ [(FreeLine.failed p.name, true)] ∧ ∀ n, (FreeLine.failed n, true) ∉ nl0

theorem one (lg : FreeLogger) (p : Plugin) (s : FreeSt) : ∃ nl, OneFree p s (invokeImpl lg p s).2 (invokeImpl lg p s).1 nl := by
  unfold invokeImpl dec
  by_cases hr : s.refs p.inst ≤ 1
  · have h0 : ¬ (s.refs p.inst - 1 > 0) := by omega
    simp only [if_pos, h0, if_false]
    unfold body write
    simp only
    cases hb : lg s.lines (.freeing p.name) with
    | true =>
      simp only
      cases hc : lg (s.lines ++ [(.freeing p.name, true)]) (.failed p.name) with
      | true => exact ⟨[(.freeing p.name, true), (.failed p.name, true)], by simp, by simp, by simp, by simp [freeingName, hr], by simp, by simp, by simp [hr], by simp, fun _ => ⟨[(.freeing p.name, true)], rfl, by simp⟩⟩
      | false => exact ⟨[(.freeing p.name, true), (.failed p.name, false)], by simp, by simp, by simp, by simp [freeingName, hr], by simp, by simp, by simp [hr], by simp, by simp⟩
    | false =>
      simp only
      unfold onceFree
      simp only
      cases hu : s.used p.inst with
      | true =>
        simp only [if_true]
        exact ⟨[(.freeing p.name, false)], by simp, by simp, by simp, by simp [freeingName, hr], by simp [hu], by simp, by simp [hu], by simp, by simp⟩
      | false =>
        simp only [Bool.false_eq_true, if_false]
        cases hf : p.code.onFreePanics with
        | false => exact ⟨[(.freeing p.name, false)], by simp, by simp, fun i hi => by simp [hi], by simp [freeingName, hr], by simp [hu, hr], by simp, by simp [hf], by simp, by simp⟩
        | true =>
          simp only
          cases hc : lg (s.lines ++ [(.freeing p.name, false)]) (.failed p.name) with
          | true => exact ⟨[(.freeing p.name, false), (.failed p.name, true)], by simp, by simp, fun i hi => by simp [hi], by simp [freeingName, hr], by simp [hu, hr], by simp, by simp [hr, hu, hf], by simp, fun _ => ⟨[(.freeing p.name, false)], rfl, by simp⟩⟩
          | false => exact ⟨[(.freeing p.name, false), (.failed p.name, false)], by simp, by simp, fun i hi => by simp [hi], by simp [freeingName, hr], by simp [hu, hr], by simp, by simp [hr, hu, hf], by simp, by simp⟩
  · have h0 : s.refs p.inst - 1 > 0 := by omega
    simp only [if_true, h0]
    exact ⟨[], by simp, by simp, by simp, by simp [hr], by simp, by simp, by simp [hr], by simp, by simp⟩

omit [GoRuntime] in
theorem mem_freeing {nl : List (FreeLine × Bool)} {n : Str} {b : Bool} (h : (FreeLine.freeing n, b) ∈ nl) : n ∈ nl.filterMap freeingName :=
  List.mem_filterMap.mpr ⟨_, h, rfl⟩

theorem many (lg : FreeLogger) (ps : List Plugin) (hi : (ps.map (·.inst)).Nodup) (hn : (ps.map (·.name)).Nodup) (s : FreeSt) :
    ∃ pre post nl, FreeRun ps s (loop lg ps s).2 (loop lg ps s).1 pre post nl := by
  induction ps generalizing s with
  | nil => exact ⟨[], [], [], by simp [loop], by simp [loop], by simp [loop], by simp, by simp [loop], by simp, by simp, by simp [loop]⟩
  | cons p r ih =>
    rw [List.map_cons, List.nodup_cons] at hi hn
    obtain ⟨nl, h⟩ := one lg p s
    unfold loop
    rcases hx : invokeImpl lg p s with ⟨e, s1⟩
    rw [hx] at h
    cases e with
    | true =>
      simp only
      obtain ⟨nl0, h1, h2⟩ := h.stop rfl
      refine ⟨[p], r, nl, rfl, h.lines, by simpa using h.refs, ?_, ?_, ?_, by simp, fun _ => ⟨[], p, nl0, rfl, h1, h2⟩⟩
      · rw [h.announced]; by_cases hc : s.refs p.inst ≤ 1 <;> simp [hc]
      · rw [h.called]; split <;> simp_all
      · intro n
        constructor
        · rintro ⟨b, hb⟩
          have := h.own n b hb
          subst this
          exact ⟨p, by simp, rfl, h.failed.mp ⟨b, hb⟩⟩
        · rintro ⟨q, hq, rfl, hq2⟩
          rw [List.mem_singleton] at hq
          subst hq
          exact h.failed.mpr hq2
    | false =>
      simp only
      obtain ⟨pre, post, nl', g⟩ := ih hi.2 hn.2 s1
      have hne : ∀ q ∈ pre, q.inst ≠ p.inst ∧ q.name ≠ p.name := by
        intro q hq
        have : q ∈ r := by rw [g.split]; exact List.mem_append_left _ hq
        exact ⟨fun e => hi.1 (List.mem_map.mpr ⟨q, this, e⟩), fun e => hn.1 (List.mem_map.mpr ⟨q, this, e⟩)⟩
      have hrefs : ∀ q ∈ pre, s1.refs q.inst = s.refs q.inst := fun q hq => by rw [h.refs, if_neg (hne q hq).1]
      have hused : ∀ q ∈ pre, s1.used q.inst = s.used q.inst := fun q hq => h.used _ (hne q hq).1
      have hpnot : p.inst ∉ pre.map (·.inst) := fun hm => by
        obtain ⟨q, hq, e⟩ := List.mem_map.mp hm
        exact (hne q hq).1 e
      have hfre : ∀ q ∈ pre, ∀ b, (FreeLine.freeing q.name, b) ∈ nl ++ nl' ↔ (FreeLine.freeing q.name, b) ∈ nl' := by
        intro q hq b
        rw [List.mem_append]
        refine ⟨fun hm => hm.resolve_left (fun hm => ?_), .inr⟩
        have := mem_freeing hm
        rw [h.announced] at this
        split at this
        · rw [List.mem_singleton] at this; exact (hne q hq).2 this
        · cases this
      have hfrp : ∀ b, (FreeLine.freeing p.name, b) ∈ nl ++ nl' ↔ (FreeLine.freeing p.name, b) ∈ nl := by
        intro b
        rw [List.mem_append]
        refine ⟨fun hm => hm.resolve_right (fun hm => ?_), .inl⟩
        have := mem_freeing hm
        rw [g.announced] at this
        obtain ⟨q, hq, e⟩ := List.mem_map.mp this
        exact (hne q (List.mem_filter.mp hq).1).2 e
      refine ⟨p :: pre, post, nl ++ nl', by rw [g.split]; rfl, by rw [g.lines, h.lines, List.append_assoc], ?_, ?_, ?_, ?_, ?_, ?_⟩
      · intro i
        rw [g.refs, h.refs]
        by_cases hip : i = p.inst
        · subst hip; simp [hpnot]
        · simp [hip]
      · rw [List.filterMap_append, h.announced, g.announced]
        have : pre.filter (fun q => decide (s1.refs q.inst ≤ 1)) = pre.filter (fun q => decide (s.refs q.inst ≤ 1)) := List.filter_congr (fun q hq => by rw [hrefs q hq])
        rw [this, List.filter_cons]
        by_cases hc : s.refs p.inst ≤ 1 <;> simp [hc]
      · rw [g.called, h.called]
        have : pre.filter (fun q => decide (s1.refs q.inst ≤ 1 ∧ s1.used q.inst = false ∧ (FreeLine.freeing q.name, false) ∈ nl')) =
            pre.filter (fun q => decide (s.refs q.inst ≤ 1 ∧ s.used q.inst = false ∧ (FreeLine.freeing q.name, false) ∈ nl ++ nl')) :=
          List.filter_congr (fun q hq => by simp only [hrefs q hq, hused q hq, hfre q hq])
        rw [this, List.filter_cons]
        simp only [hfrp]
        split <;> rename_i hc
        · simp [hc]
        · simp only [decide_eq_true_eq, hc, if_false, List.append_nil]
      · intro n
        constructor
        · rintro ⟨b, hb⟩
          rcases List.mem_append.mp hb with hb | hb
          · have := h.own n b hb
            subst this
            refine ⟨p, by simp, rfl, ?_⟩
            obtain ⟨h1, h2⟩ := h.failed.mp ⟨b, hb⟩
            exact ⟨h1, h2.imp (hfrp _).mpr id⟩
          · obtain ⟨q, hq, rfl, h1, h2⟩ := (g.failed n).mp ⟨b, hb⟩
            rw [hrefs q hq] at h1
            rw [hused q hq] at h2
            exact ⟨q, by simp [hq], rfl, h1, h2.imp (hfre q hq _).mpr id⟩
        · rintro ⟨q, hq, rfl, h1, h2⟩
          rcases List.mem_cons.mp hq with rfl | hq
          · obtain ⟨b, hb⟩ := h.failed.mpr ⟨h1, h2.imp (hfrp _).mp id⟩
            exact ⟨b, List.mem_append_left _ hb⟩
          · obtain ⟨b, hb⟩ := (g.failed q.name).mpr ⟨q, hq, rfl, by rw [hrefs q hq]; exact h1, by rw [hused q hq]; exact h2.imp (hfre q hq _).mp id⟩
            exact ⟨b, List.mem_append_right _ hb⟩
      · intro he
        obtain ⟨h1, h2⟩ := g.all he
        exact ⟨h1, fun n hm => (List.mem_append.mp hm).elim (h.all rfl n) (h2 n)⟩
      · intro he
        obtain ⟨pre0, q, nl0, h1, h2, h3⟩ := g.stop he
        exact ⟨p :: pre0, q, nl ++ nl0, by rw [h1]; rfl, by rw [h2, List.append_assoc], fun n hm => (List.mem_append.mp hm).elim (h.all rfl n) (h3 n)⟩

theorem one_told (lg : FreeLogger) (p : Plugin) (s : FreeSt) : ∀ x ∈ (invokeImpl lg p s).2.lines, x ∉ s.lines → ∃ h, x.2 = lg h x.1 := by
  have w : ∀ l (t : FreeSt), ∀ x ∈ (write lg l t).2.lines, x ∈ t.lines ∨ ∃ h, x.2 = lg h x.1 := by
    intro l t x hx
    rcases List.mem_append.mp hx with hx | hx
    · exact .inl hx
    · rw [List.mem_singleton] at hx
      subst hx
      exact .inr ⟨_, rfl⟩
  have o : ∀ t : FreeSt, (onceFree p t).2.lines = t.lines := by intro t; unfold onceFree; split <;> rfl
  have b : ∀ t, ∀ x ∈ (body lg p t).2.lines, x ∈ t.lines ∨ ∃ h, x.2 = lg h x.1 := by
    intro t x hx
    unfold body at hx
    rcases hw : write lg (.freeing p.name) t with ⟨c, t'⟩
    rw [hw] at hx
    have h1 := w (.freeing p.name) t
    rw [hw] at h1
    cases c with
    | true => exact h1 x hx
    | false => simp only [o] at hx; exact h1 x hx
  intro x hx hn
  unfold invokeImpl at hx
  simp only at hx
  split at hx
  · exact absurd hx hn
  · rcases hb : body lg p (dec p s) with ⟨c, t⟩
    rw [hb] at hx
    have h1 := b (dec p s)
    rw [hb] at h1
    cases c with
    | false => exact (h1 x hx).resolve_left hn
    | true =>
      rcases w _ _ x hx with h2 | h2
      · exact (h1 x h2).resolve_left hn
      · exact h2

/-- What is recorded of a line is what the logger has done. -/
theorem lines_told (lg : FreeLogger) (ps : List Plugin) (s : FreeSt) : ∀ x ∈ (loop lg ps s).2.lines, x ∉ s.lines → ∃ h, x.2 = lg h x.1 := by
  induction ps generalizing s with
  | nil => intro x hx hn; exact absurd hx hn
  | cons p r ih =>
    intro x hx hn
    unfold loop at hx
    have h1 := one_told lg p s
    rcases hi : invokeImpl lg p s with ⟨c, t⟩
    rw [hi] at hx h1
    cases c with
    | true => exact h1 x hx hn
    | false =>
      by_cases ht : x ∈ t.lines
      · exact h1 x ht hn
      · exact ih t x hx ht

omit [GoRuntime] in
theorem split_unique {α : Type} (P : α → Prop) {a b c d : List α} {x y : α} (ha : ∀ q ∈ a, ¬ P q) (hx : P x) (hc : ∀ q ∈ c, ¬ P q) (hy : P y)
    (h : a ++ x :: b = c ++ y :: d) : a = c ∧ x = y ∧ b = d := by
  induction a generalizing c with
  | nil =>
    cases c with
    | nil => simp at h; exact ⟨rfl, h.1, h.2⟩
    | cons z c =>
      simp at h
      exact absurd (h.1 ▸ hx) (hc z (by simp))
  | cons z a ih =>
    cases c with
    | nil =>
      simp at h
      exact absurd (h.1 ▸ hy) (ha z (by simp))
    | cons w c =>
      simp at h
      obtain ⟨rfl, h⟩ := h
      obtain ⟨rfl, h2⟩ := ih (fun q hq => ha q (by simp [hq])) (fun q hq => hc q (by simp [hq])) h
      exact ⟨rfl, h2⟩

end FreeLog

end Hotswap
