import Verif.Proofs.HookLast

/-! `finishLoad` as a whole. -/

namespace Hotswap

variable [GoRuntime]

open M

/-- The log of `finishLoad`, complete or cut short: imports of the keys `im`, `OnLoad` of `ol`, live functions of
`lf`, live types of `lt`, `OnInit` of `oi` starting with vault `v0`. -/
structure FinishLog (s0 : LoadSt) (it : Iter) (data : Nat) (s : LoadSt) (im : List Str) (ol lf lt oi : List Plugin) (v0 : Vault) : Prop where
  im_pre : im <+: importKeys s0.pm.pluginMap it
  ol_pre : ol <+: freshOnes s.pm.ordered
  lf_pre : lf <+: s.pm.ordered
  lt_pre : lt <+: s.pm.ordered
  oi_pre : oi <+: freshOnes s.pm.ordered
  acts : s.acts = s0.acts
    ++ ((im.filterMap (importInst s0.pm.pluginMap)).map Act.callImport
    ++ (ol.map (fun p => Act.callOnLoad p.inst data)
    ++ (lf.map (fun p => Act.callLiveFuncs p.inst)
    ++ (lt.map (fun p => Act.callLiveTypes p.inst)
    ++ initActs s0.pm.mid v0 oi))))
  ol_ok : ∀ p ∈ ol.dropLast, p.code.onLoad data = .ok
  im_done : s.pm.ordered ≠ [] → im = importKeys s0.pm.pluginMap it
  ol_done : lf ≠ [] ∨ lt ≠ [] ∨ oi ≠ [] → ol = freshOnes s.pm.ordered ∧ ∀ p ∈ ol, p.code.onLoad data = .ok
  lf_done : lt ≠ [] ∨ oi ≠ [] → lf = s.pm.ordered
  lt_done : oi ≠ [] → lt = s.pm.ordered ∧ VaultReady s.pm.ordered s0.pm.vault v0 ∧
    LiveOK (·.code.liveFuncs) s.pm.ordered ∧ LiveOK (·.code.liveTypes) s.pm.ordered
  oi_ok : initOK v0 oi.dropLast

/-- `l` orders the plugins of `m`, freshly loaded plugins are resolved, kept ones depend on kept ones. -/
structure OrderedOK (m : GoMap Plugin) (l : List Plugin) : Prop where
  perm : l.Perm m.vals
  topo : Topological m l
  fresh : ∀ k p, m.get? k = some p → p.unchanged = false → Resolved m p
  rebuilt : ∀ k p, m.get? k = some p → p.unchanged = true →
        ∀ d ∈ p.deps, ∃ q, m.get? (name2key d) = some q ∧ q.unchanged = true

/-- What `finishLoad` never changes. -/
structure FinishFrame (s0 s : LoadSt) : Prop where
  next : s.next = s0.next
  mid : s.pm.mid = s0.pm.mid
  same : SameMap s0.pm.pluginMap s.pm.pluginMap
  /-- either no order was established, or it is complete and topological -/
  order : s.pm.ordered = [] ∨ OrderedOK s.pm.pluginMap s.pm.ordered

/-- State after `finishLoad` succeeded. -/
structure Finished (s0 : LoadSt) (it : Iter) (data : Nat) (s : LoadSt) : Prop where
  frame : FinishFrame s0 s
  ok : OrderedOK s.pm.pluginMap s.pm.ordered
  liveFuncs : LiveOK (·.code.liveFuncs) s.pm.ordered
  liveTypes : LiveOK (·.code.liveTypes) s.pm.ordered
  log : ∃ v0, FinishLog s0 it data s (importKeys s0.pm.pluginMap it) (freshOnes s.pm.ordered) s.pm.ordered s.pm.ordered
      (freshOnes s.pm.ordered) v0 ∧ VaultReady s.pm.ordered s0.pm.vault v0 ∧ initOK v0 (freshOnes s.pm.ordered) ∧
      s.pm.vault = vaultAfter v0 (freshOnes s.pm.ordered)
  onLoad : ∀ p ∈ freshOnes s.pm.ordered, p.code.onLoad data = .ok

/-- State after `finishLoad` failed, without the last action. -/
structure FinishFailed0 (s0 : LoadSt) (it : Iter) (data : Nat) (f : Fail) (s : LoadSt) : Prop where
  frame : FinishFrame s0 s
  fail : FailOK s.pm f
  log : ∃ im ol lf lt oi v0, FinishLog s0 it data s im ol lf lt oi v0

/-- State after `finishLoad` failed. -/
structure FinishFailed (s0 : LoadSt) (it : Iter) (data : Nat) (f : Fail) (s : LoadSt) : Prop extends FinishFailed0 s0 it data f s where
  last : HookLast data f s

theorem FailOK.vault {pm pm' : Manager} {f : Fail} (h : FailOK pm f) (hm : pm'.pluginMap = pm.pluginMap)
    (ho : pm'.ordered = pm.ordered) : FailOK pm' f := by
  unfold FailOK at *
  rw [hm, ho]; exact h

theorem finishLoad_wp0 {s0 : LoadSt} (it : Iter) (data : Nat) (hk : Keyed s0.pm.pluginMap)
    (hempty : ∀ k p, s0.pm.pluginMap.get? k = some p → p.unchanged = false → p.deps = [] ∧ p.bound = [])
    (hord : s0.pm.ordered = [])
    (hf : s0.pm.vault.liveFuncs = .empty) (ht : s0.pm.vault.liveTypes = .empty) :
    wp (finishLoad it data) (fun _ s => Finished s0 it data s) (FinishFailed0 s0 it data) s0 := by
  unfold finishLoad
  simp only [wp_bind]
  refine wp_mono (initDeps_wp it hk hempty) ?_ ?_
  · intro _ s1 h1
    have hmid : s1.pm.mid = s0.pm.mid := by rw [h1.pm]
    have hvault : s1.pm.vault = s0.pm.vault := by rw [h1.pm]
    have hframe1 : FinishFrame s0 s1 := ⟨h1.next, hmid, h1.same, .inr ⟨h1.perm, h1.topo, h1.fresh, h1.rebuilt⟩⟩
    refine wp_mono (onLoad_wp data (fun p hp => h1.perm.mem_iff.mp hp)) ?_ ?_
    · rintro _ s2 ⟨rfl, hol⟩
      refine wp_mono (setupVault_wp it (s0 := { s1 with acts := s1.acts ++ (freshOnes s1.pm.ordered).map (fun p => Act.callOnLoad p.inst data) })
        (by simp only; rw [hvault]; exact hf) (by simp only; rw [hvault]; exact ht)) ?_ ?_
      · rintro _ s3 ⟨v0, rfl, hv, hlf, hlt⟩
        simp only [hvault] at hv
        refine wp_mono (onInit_wp (fun p hp => h1.perm.mem_iff.mp hp)) ?_ ?_
        · rintro _ s4 ⟨rfl, hi⟩
          refine ⟨⟨hframe1.next, hframe1.mid, hframe1.same, hframe1.order⟩, ⟨h1.perm, h1.topo, h1.fresh, h1.rebuilt⟩, hlf, hlt, ⟨v0, ?_, hv, hi, rfl⟩, hol⟩
          refine ⟨List.prefix_refl _, List.prefix_refl _, List.prefix_refl _, List.prefix_refl _, List.prefix_refl _, ?_,
            fun p hp => hol p (List.dropLast_subset _ hp), fun _ => rfl, fun _ => ⟨rfl, hol⟩, fun _ => rfl, fun _ => ⟨rfl, hv, hlf, hlt⟩, ?_⟩
          · simp only [h1.acts, hmid, List.append_assoc]
          · dsimp only at hi ⊢
            rcases List.eq_nil_or_concat (freshOnes s1.pm.ordered) with hfo | ⟨l, a, hfo⟩
            · rw [hfo]; exact trivial
            · rw [List.concat_eq_append] at hfo
              rw [hfo, initOK_append] at hi
              rw [hfo, List.dropLast_concat]; exact hi.1
        · rintro f s4 ⟨hfl, done, p, hpre, hdone, hp, rfl⟩
          refine ⟨⟨hframe1.next, hframe1.mid, hframe1.same, hframe1.order⟩, hfl, importKeys s0.pm.pluginMap it, freshOnes s1.pm.ordered, s1.pm.ordered, s1.pm.ordered, done ++ [p], v0, ?_⟩
          refine ⟨List.prefix_refl _, List.prefix_refl _, List.prefix_refl _, List.prefix_refl _, hpre, ?_,
            fun p hp => hol p (List.dropLast_subset _ hp), fun _ => rfl, fun _ => ⟨rfl, hol⟩, fun _ => rfl, fun _ => ⟨rfl, hv, hlf, hlt⟩, ?_⟩
          · simp only [h1.acts, hmid, List.append_assoc]
          · rw [List.dropLast_concat]; exact hdone
      · rintro f s3 ⟨v, lf, lt, hlf, hlt, hlflt, rfl, hfl⟩
        refine ⟨⟨hframe1.next, hframe1.mid, hframe1.same, hframe1.order⟩, hfl, importKeys s0.pm.pluginMap it, freshOnes s1.pm.ordered, lf, lt, [], v, ?_⟩
        refine ⟨List.prefix_refl _, List.prefix_refl _, hlf, hlt, List.nil_prefix, ?_,
            fun p hp => hol p (List.dropLast_subset _ hp), fun _ => rfl, fun _ => ⟨rfl, hol⟩, ?_, fun h => absurd rfl h, trivial⟩
        · simp only [h1.acts, List.append_assoc, initActs, List.append_nil]
        · rintro (h | h)
          · exact hlflt h
          · exact absurd rfl h
    · rintro f s2 ⟨hfl, done, p, hpre, hdone, hp, rfl⟩
      refine ⟨⟨hframe1.next, hframe1.mid, hframe1.same, hframe1.order⟩, hfl, importKeys s0.pm.pluginMap it, done ++ [p], [], [], [], s0.pm.vault, ?_⟩
      refine ⟨List.prefix_refl _, hpre, List.nil_prefix, List.nil_prefix, List.nil_prefix, ?_,
            ?_, fun _ => rfl, ?_, ?_, fun h => absurd rfl h, trivial⟩
      · simp only [h1.acts, List.append_assoc, initActs, List.append_nil, List.map_nil]
      · rw [List.dropLast_concat]; exact hdone
      · rintro (h | h | h) <;> exact absurd rfl h
      · rintro (h | h) <;> exact absurd rfl h
  · rintro f s1 ⟨hfr, hfl, im, him, hacts⟩
    have ho : s1.pm.ordered = [] := by rw [hfr.pm]; exact hord
    refine ⟨⟨hfr.next, by rw [hfr.pm], hfr.same, .inl ho⟩, hfl, im, [], [], [], [], s0.pm.vault, ?_⟩
    refine ⟨him, List.nil_prefix, List.nil_prefix, List.nil_prefix, List.nil_prefix, ?_, by simp,
      fun h => absurd ho h, ?_, ?_, fun h => absurd rfl h, trivial⟩
    · simp [hacts, initActs]
    · rintro (h | h | h) <;> exact absurd rfl h
    · rintro (h | h) <;> exact absurd rfl h

theorem finishLoad_wp {s0 : LoadSt} (it : Iter) (data : Nat) (hk : Keyed s0.pm.pluginMap)
    (hempty : ∀ k p, s0.pm.pluginMap.get? k = some p → p.unchanged = false → p.deps = [] ∧ p.bound = [])
    (hord : s0.pm.ordered = [])
    (hf : s0.pm.vault.liveFuncs = .empty) (ht : s0.pm.vault.liveTypes = .empty) :
    wp (finishLoad it data) (fun _ s => Finished s0 it data s) (FinishFailed s0 it data) s0 :=
  wp_mono (wp_and (finishLoad_wp0 it data hk hempty hord hf ht) (finishLoad_last it data))
    (fun _ _ h => h.1) (fun _ _ h => ⟨h.1, h.2⟩)

end Hotswap
