import Verif.Proofs.FreeOrder

/-! Completed calls in a history. -/

namespace Hotswap

variable [GoRuntime]

/-- The call that ends with `returned` is the one that began last, and it executed a plan made in the state in which it
began. -/
theorem completed {cfg : Config} {m : Machine} (h : Reachable cfg m) {a b c : History} {t0 t1 : Nat} {k k' : Kind} {res : Result}
    (he : m.trace = a ++ (t0, .called k) :: (b ++ (t1, .returned k' res) :: c)) (hb : ∀ e ∈ b, e.2.isCall = false) :
    k' = k ∧ ∃ m0 env, m0.trace = a ∧ Link cfg (a ++ (t0, .called k) :: b) k res [] m0 env t0 b := by
  have he' : m.trace = (a ++ (t0, .called k) :: b) ++ (t1, .returned k' res) :: c := by rw [he]; simp
  obtain ⟨m0, env, t, b', hl⟩ := executed h _ _ _ _ _ he'
  obtain ⟨h1, h2, h3, h4⟩ := last_call_unique hl.trace hb hl.only
  subst h1 h2 h3 h4
  exact ⟨rfl, m0, env, rfl, hl⟩

theorem link_plan {cfg : Config} (hcfg : cfg.OK) {tr : History} {k : Kind} {res : Result} {todo : List Act} {m0 : Machine} {env : Env} {t : Nat} {b : History}
    (h : Link cfg tr k res todo m0 env t b) : View cfg env k m0.current m0.next (plan cfg env k m0.current m0.next) :=
  plan_view hcfg (fun om ho => ((inv hcfg h.reach).cur om ho).1)

omit [GoRuntime] in
theorem mem_actsOf {tr : History} {a : Act} : a ∈ actsOf tr ↔ ∃ t, (t, Ev.act a) ∈ tr := by
  unfold actsOf
  rw [List.mem_filterMap]
  constructor
  · rintro ⟨⟨t, e⟩, h1, h2⟩
    cases e <;> simp at h2
    subst h2
    exact ⟨t, h1⟩
  · rintro ⟨t, h⟩
    exact ⟨_, h, rfl⟩

omit [GoRuntime] in
theorem published_append (a b : History) : published (a ++ b) = published a ++ published b := by
  unfold published; rw [List.filterMap_append]

omit [GoRuntime] in
theorem published_nil {b : History} (h : ∀ pm, Act.publish pm ∉ actsOf b) : published b = [] := by
  unfold published
  rw [List.filterMap_eq_nil_iff]
  rintro ⟨t, e⟩ he
  cases e with
  | act x =>
    cases x with
    | publish pm => exact absurd (mem_actsOf.mpr ⟨t, he⟩) (h pm)
    | _ => rfl
  | _ => rfl

omit [GoRuntime] in
theorem lastPublished_frame {a b : History} {e : Nat × Ev} (he : ∀ pm, e.2 ≠ .act (.publish pm)) (h : ∀ pm, Act.publish pm ∉ actsOf b) :
    lastPublished (a ++ e :: b) = lastPublished a := by
  have : a ++ e :: b = (a ++ [e]) ++ b := by simp
  unfold lastPublished
  rw [this, published_append, published_nil h, List.append_nil, published_append]
  have : published [e] = [] := by
    refine published_nil ?_
    intro pm hm
    obtain ⟨t, ht⟩ := mem_actsOf.mp hm
    simp at ht
    exact he pm (by rw [← ht])
  rw [this, List.append_nil]

/-- The actions of a call that fails: no publication, no start of a delayed free, no counting, and hooks only on instances that did not
exist before. -/
theorem Shape.of_failed {cfg : Config} {k : Kind} {old : Option Manager} {n0 : Nat} {p : Plan} (h : Shape cfg k old n0 p) (hf : ∀ d, p.res ≠ .ok d) :
    (∀ pm, Act.publish pm ∉ p.acts) ∧ (∀ pm, Act.spawnFree pm ∉ p.acts) ∧ Act.count ∉ p.acts ∧
      ∀ a ∈ p.acts, ∀ i g, hookOf a = some (i, g) → n0 ≤ i := by
  cases h with
  | failed pre rel acts res log stage acq nodup built origin =>
    rw [acts]
    have hno : ∀ x : Act, x.stage = 7 → (∀ i, x ≠ .release i) → x ∉ pre ++ rel.map Act.release := by
      intro x hx hr hm
      rcases List.mem_append.mp hm with hm | hm
      · have := stage x hm; omega
      · obtain ⟨i, _, rfl⟩ := List.mem_map.mp hm; exact hr i rfl
    refine ⟨fun pm => hno _ rfl (by simp), fun pm => hno _ rfl (by simp), hno _ rfl (by simp), ?_⟩
    intro a ha i g hg
    rcases List.mem_append.mp ha with ha | ha
    · exact (log.range a ha i g hg).1
    · obtain ⟨j, _, rfl⟩ := List.mem_map.mp ha; cases hg
  | ok pre acts d res log stage acq good origin => exact absurd res (hf d)
  | noop acts d res built => exact absurd res (hf d)

/-- While a failing call runs, no instance of the current manager is freed. -/
theorem failing_no_free {cfg : Config} (hcfg : cfg.OK) {m : Machine} (h : Reachable cfg m) {r : Running} (hr : m.running = some r) (hf : ∀ d, r.res ≠ .ok d)
    {i : Nat} (hz : i ∈ m.zs) : i ∉ m.currentInsts := by
  intro hi
  have hinv := inv hcfg h
  have hp : m.pending = none := by
    cases hinv.run r hr with
    | fail pre rel todo held idle res pending stage incs order => exact pending
    | ok pre new todo held idle d res => exact absurd res (hf d)
    | spawned new dyn todo held idle d res => exact absurd res (hf d)
    | last todo held idle d res => exact absurd res (hf d)
  refine (hinv.core.zero i hz).2.1 ?_
  unfold Machine.holds Machine.curHeld
  simp [hp, hi]

end Hotswap
