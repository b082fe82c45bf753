import Verif.Proofs.Plan

/-! The shape of a call as the machine needs it. -/

namespace Hotswap

variable [GoRuntime]

/-- The shape of the actions of a call. -/
inductive Shape (cfg : Config) (k : Kind) (old : Option Manager) (n0 : Nat) (p : Plan) : Prop
  | failed (pre : List Act) (rel : List Nat) (acts : p.acts = pre ++ rel.map Act.release) (res : ∀ d, p.res ≠ .ok d)
      (log : Log old n0 p.next pre) (stage : ∀ a ∈ pre, a.stage ≤ 6) (acq : (acquired pre).Perm rel) (nodup : rel.Nodup)
      (built : p.built.ordered = [] ∨ (SoundManager p.next p.built ∧ rel = p.built.releaseList))
      (origin : Origin old n0 p.built)
  | ok (pre : List Act)
      (acts : p.acts = pre ++ ((if cfg.static.isSome then [] else spawnActs old) ++ (.publish p.built :: countActs k)))
      (d : Details) (res : p.res = .ok d)
      (log : Log old n0 p.next pre) (stage : ∀ a ∈ pre, a.stage ≤ 6) (acq : (acquired pre).Perm p.built.insts)
      (good : SoundManager p.next p.built) (origin : Origin old n0 p.built)
  | noop (acts : p.acts = countActs k) (d : Details) (res : p.res = .ok d) (built : p.built.ordered = [])

theorem Log.append_plain {old : Option Manager} {n0 next : Nat} {l r : List Act} (h : Log old n0 next l)
    (hs : ∀ a ∈ l, a.stage ≤ 5) (hr : ∀ a ∈ r, a.stage = 6) : Log old n0 next (l ++ r) := by
  have hk : ∀ a ∈ r, hookOf a = none := by
    intro a ha
    have := hr a ha
    cases a <;> simp [Act.stage] at this <;> rfl
  refine ⟨?_, ?_, ?_, ?_, ?_⟩
  · exact pairwise_stage_append 6 h.sorted (pairwise_stage_const 6 hr) (fun a ha => Nat.le_trans (hs a ha) (by decide))
      (fun a ha => by rw [hr a ha]; exact Nat.le_refl _)
  · refine HooksIncr.append h.incr (hooksIncr_of_none hk) 10 ?_ ?_
    · intro a _ i g _; cases g <;> decide
    · intro a ha i g hg; rw [hk a ha] at hg; cases hg
  · intro a ha i g hg
    rcases List.mem_append.mp ha with ha | ha
    · exact h.range a ha i g hg
    · rw [hk a ha] at hg; cases hg
  · intro i hi
    rcases List.mem_append.mp hi with hi | hi
    · exact h.incs i hi
    · have := hr _ hi; simp [Act.stage] at this
  · intro i hi
    rcases List.mem_append.mp hi with hi | hi
    · exact h.regs i hi
    · have := hr _ hi; simp [Act.stage] at this

theorem Log.weaken {old : Option Manager} {n0 next : Nat} {l : List Act} (h : Log none n0 next l) : Log old n0 next l :=
  ⟨h.sorted, h.incr, h.range, fun i hi => (by obtain ⟨om, ho, _⟩ := h.incs i hi; cases ho), h.regs⟩

theorem Origin.weaken {old : Option Manager} {n0 : Nat} {pm : Manager} (h : Origin none n0 pm) : Origin old n0 pm := by
  intro k p hp
  rcases h k p hp with ⟨_, om, _, ho, _⟩ | h
  · cases ho
  · exact .inr h

theorem mem_cbActs {new : Nat} {old : Option Nat} {cbs : List (Nat × Outcome)} {a : Act} (h : a ∈ cbActs new old cbs) : a.stage = 6 := by
  obtain ⟨c, _, rfl⟩ := List.mem_map.mp h; rfl

theorem BodyLog.cleanup {old : Option Manager} {n0 : Nat} {s : LoadSt} (h : BodyLog old n0 s) (it : Iter) :
    ∃ rel : List Nat, cleanupActs it s.pm = rel.map Act.release ∧ (acquired s.acts).Perm rel ∧ rel.Nodup ∧
      (s.pm.ordered = [] ∨ (SoundManager s.next s.pm ∧ rel = s.pm.releaseList)) := by
  refine ⟨(freeOrder it s.pm).map (·.inst), by simp [cleanupActs, Function.comp_def], ?_⟩
  unfold freeOrder
  by_cases ho : s.pm.ordered = []
  · rw [if_pos ho]
    have hp : (List.map (·.inst) ((s.pm.pluginMap.rangeKV it .free).map Prod.snd)).Perm s.pm.insts :=
      (GoMap.rangeKV_vals_perm it .free s.pm.pluginMap).map _
    exact ⟨h.acq.trans hp.symm, hp.symm.nodup h.nodup, .inl ho⟩
  · rw [if_neg ho]
    rcases h.order with ho' | hs
    · exact absurd ho' ho
    · have hp : (s.pm.ordered.reverse.map (·.inst)).Perm s.pm.insts :=
        ((List.reverse_perm _).trans hs.ordered).map _
      exact ⟨h.acq.trans hp.symm, hp.symm.nodup h.nodup, .inr ⟨hs, by simp [Manager.releaseList]⟩⟩

theorem acquired_cb {l : List Act} {new : Nat} {old : Option Nat} {cbs : List (Nat × Outcome)} :
    acquired (l ++ cbActs new old cbs) = acquired l := by
  rw [acquired_append, acquired_eq_nil (l := cbActs new old cbs) (fun a ha => by rw [mem_cbActs ha]; decide), List.append_nil]

theorem stage_cb {l : List Act} (h : ∀ a ∈ l, a.stage ≤ 5) {new : Nat} {old : Option Nat} {cbs : List (Nat × Outcome)} :
    ∀ a ∈ l ++ cbActs new old cbs, a.stage ≤ 6 := by
  intro a ha
  rcases List.mem_append.mp ha with ha | ha
  · exact Nat.le_trans (h a ha) (by decide)
  · rw [mem_cbActs ha]; exact Nat.le_refl _

theorem View.next_le {cfg : Config} {env : Env} {k : Kind} {old : Option Manager} {n0 : Nat} {p : Plan}
    (h : View cfg env k old n0 p) : n0 ≤ p.next := by
  cases h with
  | listErr e dyn why acts res next built => omega
  | empty absDir entries dyn dir wl none acts res next built => omega
  | escaped ext panics acts res next built => omega
  | dynErr absDir entries dyn dir wl some s0 sb f cr failed body acts res next built => rw [next]; exact Nat.le_of_lt body.lo
  | dynCb absDir entries dyn dir wl some s0 s1 s cr done cbs n o rest split bad good acts res next built => rw [next]; exact Nat.le_of_lt done.body.lo
  | dynOk absDir entries dyn dir wl some s0 s1 s d cr done good details acts res next built => rw [next]; exact Nat.le_of_lt done.body.lo
  | staticMissing sps e st kl sel acts res next built => omega
  | staticErr sps sel st kl hsel s0 sb f cr failed body acts res next built => rw [next]; exact Nat.le_of_lt body.lo
  | staticCb sps sel st kl hsel s0 s1 s cr done cbs n o rest split bad good acts res next built => rw [next]; exact Nat.le_of_lt done.body.lo
  | staticOk sps sel st kl hsel s0 s1 s d cr done good details acts res next built => rw [next]; exact Nat.le_of_lt done.body.lo

theorem shape_nil {cfg : Config} {k : Kind} {old : Option Manager} {n0 : Nat} {p : Plan} (ha : p.acts = [])
    (hr : ∀ d, p.res ≠ .ok d) (hb : p.built.ordered = []) (ho : Origin old n0 p.built) : Shape cfg k old n0 p := by
  refine .failed [] [] (by simp [ha]) hr ⟨by simp, by simp [HooksIncr], by simp, by simp, by simp⟩ (by simp) (by simp [acquired]) (by simp) (.inl hb) ho

theorem origin_none {old : Option Manager} {n0 : Nat} : Origin old n0 noManager := by
  intro k p hp; cases hp

theorem View.shape {cfg : Config} {env : Env} {k : Kind} {old : Option Manager} {n0 : Nat} {p : Plan}
    (hk : refused cfg k = false) (h : View cfg env k old n0 p) : Shape cfg k old n0 p := by
  have hdyn : cfg.static = none ∨ k ≠ .load → cfg.static.isSome = false := by
    rintro (h | h)
    · rw [h]; rfl
    · cases k with
      | load => exact absurd rfl h
      | reload e => exact hk
  cases h with
  | listErr e dyn why acts res next built => exact shape_nil acts (by simp [res]) (by rw [built]; rfl) (by rw [built]; exact origin_none)
  | empty absDir entries dyn dir wl none acts res next built => exact .noop acts _ res (by rw [built]; rfl)
  | escaped ext panics acts res next built => exact shape_nil acts (by simp [res]) (by rw [built]; rfl) (by rw [built]; exact origin_none)
  | dynErr absDir entries dyn dir wl some s0 sb f cr failed body acts res next built =>
    obtain ⟨rel, h1, h2, h3, h4⟩ := body.cleanup env.it
    rw [h1] at acts
    refine .failed sb.acts rel acts (by simp [res]) (next ▸ body.log) (fun a ha => Nat.le_trans (body.stage a ha) (by decide)) h2 h3 ?_ ?_
    · rw [next, built]; exact h4
    · rw [built]; exact body.origin
  | dynCb absDir entries dyn dir wl some s0 s1 s cr done cbs n o rest split bad good acts res next built =>
    obtain ⟨rel, h1, h2, h3, h4⟩ := done.body.cleanup env.it
    rw [h1] at acts
    refine .failed _ rel acts (by simp [res]) (next ▸ done.body.log.append_plain done.body.stage (fun a ha => mem_cbActs ha)) (stage_cb done.body.stage)
      (by rw [acquired_cb]; exact h2) h3 ?_ ?_
    · rw [next, built]; exact h4
    · rw [built]; exact done.body.origin
  | dynOk absDir entries dyn dir wl some s0 s1 s d cr done good details acts res next built =>
    refine .ok (s.acts ++ cbActs s.pm.mid (old.map (·.mid)) (callbacks cfg env k)) ?_ d res
      (next ▸ done.body.log.append_plain done.body.stage (fun a ha => mem_cbActs ha)) (stage_cb done.body.stage) ?_ ?_ ?_
    · rw [hdyn dyn, built]; exact acts
    · rw [acquired_cb, built]; exact done.body.acq
    · rw [next, built]; exact done.good.toSoundManager
    · rw [built]; exact done.body.origin
  | staticMissing sps e st kl sel acts res next built =>
    exact .failed [] [] (by simp [acts]) (by simp [res]) ⟨by simp, by simp [HooksIncr], by simp, by simp, by simp⟩ (by simp) (by simp [acquired]) (by simp) (.inl built.1) (by
      intro k p hp
      rw [built.2] at hp; cases hp)
  | staticErr sps sel st kl hsel s0 sb f cr failed body acts res next built =>
    obtain ⟨rel, h1, h2, h3, h4⟩ := body.cleanup env.it
    rw [h1] at acts
    refine .failed sb.acts rel acts (by simp [res]) (next ▸ body.log.weaken) (fun a ha => Nat.le_trans (body.stage a ha) (by decide)) h2 h3 ?_ ?_
    · rw [next, built]; exact h4
    · rw [built]; exact body.origin.weaken
  | staticCb sps sel st kl hsel s0 s1 s cr done cbs n o rest split bad good acts res next built =>
    obtain ⟨rel, h1, h2, h3, h4⟩ := done.body.cleanup env.it
    rw [h1] at acts
    refine .failed _ rel acts (by simp [res]) (next ▸ (done.body.log.append_plain done.body.stage (fun a ha => mem_cbActs ha)).weaken) (stage_cb done.body.stage)
      (by rw [acquired_cb]; exact h2) h3 ?_ ?_
    · rw [next, built]; exact h4
    · rw [built]; exact done.body.origin.weaken
  | staticOk sps sel st kl hsel s0 s1 s d cr done good details acts res next built =>
    subst kl
    refine .ok (s.acts ++ cbActs s.pm.mid none (callbacks cfg env .load)) ?_ d res
      (next ▸ (done.body.log.append_plain done.body.stage (fun a ha => mem_cbActs ha)).weaken) (stage_cb done.body.stage) ?_ ?_ ?_
    · rw [st, built]; exact acts
    · rw [acquired_cb, built]; exact done.body.acq
    · rw [next, built]; exact done.good.toSoundManager
    · rw [built]; exact done.body.origin.weaken

end Hotswap
