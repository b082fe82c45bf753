import Verif.Spec.ErrTrue

/-!
# Every returned error is true: C53
-/

namespace Hotswap

section
variable [GoRuntime]

omit [GoRuntime] in
theorem endsWith_cleanup {l : List Act} {a : Act} (h : l.getLast? = some a) (it : Iter) (pm : Manager) : EndsWith (l ++ cleanupActs it pm) a := by
  obtain ⟨pre, rfl⟩ := List.getLast?_eq_some_iff.mp h
  refine ⟨pre, cleanupActs it pm, by simp, ?_⟩
  intro x hx
  unfold cleanupActs at hx
  obtain ⟨q, _, rfl⟩ := List.mem_map.mp hx
  exact ⟨_, rfl⟩

omit [GoRuntime] in
/-- Two positions with the same value. -/
theorem two_of_count {α : Type} {g : α → Str} {l : List α} {k : Str} (h : 1 < (l.map g).count k) :
    ∃ l1 f1 l2 f2 l3, l = l1 ++ f1 :: l2 ++ f2 :: l3 ∧ g f1 = k ∧ g f2 = k := by
  have one : ∀ (l : List α), 0 < (l.map g).count k → ∃ l1 f1 l2, l = l1 ++ f1 :: l2 ∧ g f1 = k := by
    intro l h
    obtain ⟨f, hf, hk⟩ := List.mem_map.mp (List.count_pos_iff.mp h)
    obtain ⟨a, b, rfl⟩ := List.append_of_mem hf
    exact ⟨a, f, b, rfl, hk⟩
  induction l with
  | nil => simp at h
  | cons x r ih =>
    by_cases hx : g x = k
    · simp only [List.map_cons, hx, List.count_cons_self] at h
      obtain ⟨l1, f1, l2, rfl, h1⟩ := one r (by omega)
      exact ⟨[], x, l1, f1, l2, rfl, hx, h1⟩
    · rw [List.map_cons, List.count_cons_of_ne hx] at h
      obtain ⟨l1, f1, l2, f2, l3, rfl, h1, h2⟩ := ih h
      exact ⟨x :: l1, f1, l2, f2, l3, rfl, h1, h2⟩

/-- The errors of the later phases. -/
theorem late_true {cfg : Config} {env : Env} {k : Kind} {old : Option Manager} {n0 : Nat} {p : Plan} (hgood : ∀ om, old = some om → SoundManager n0 om)
    {s1 sb : LoadSt} {f : Fail} (keyed : Keyed s1.pm.pluginMap) (why : FinishFailed s1 env.it env.data f sb)
    (acts : p.acts = sb.acts ++ cleanupActs env.it sb.pm) (built : p.built = sb.pm) (origin : Origin old n0 sb.pm)
    (himp : ImportFault p.built (errOf f)) (hdup : DuplicateFault p.built (errOf f)) (hcyc : ∀ names, errOf f = .cyclic names → WalksBack p.built names) :
    ErrorTrue cfg env k old p (errOf f) := by
  have hk := why.frame.same.keyed keyed
  have hfind : ∀ q ∈ sb.pm.pluginMap.vals, sb.pm.findPlugin q.name = some q := by
    intro q hq
    obtain ⟨key, hq⟩ := GoMap.mem_vals.mp hq
    unfold Manager.findPlugin
    rw [hk _ _ hq]; exact hq
  have hord : ∀ q ∈ sb.pm.ordered, q ∈ sb.pm.pluginMap.vals := by
    intro q hq
    rcases why.frame.order with h | h
    · rw [h] at hq; cases hq
    · exact h.perm.mem_iff.mp hq
  have hnew : ∀ q ∈ sb.pm.pluginMap.vals, isNew old q = !q.unchanged := by
    intro q hq
    obtain ⟨key, hq⟩ := GoMap.mem_vals.mp hq
    exact isNew_iff hgood origin hq
  have hend : ∀ {a : Act}, sb.acts.getLast? = some a → EndsWith p.acts a := fun h => by rw [acts]; exact endsWith_cleanup h _ _
  have hfail := why.fail
  have hlast := why.last
  cases f with
  | inl e =>
    simp only [errOf] at himp hdup hcyc ⊢
    cases e with
    | hookErr n =>
      rcases hlast with ⟨q, hq, rfl, hu, hl, hc⟩ | ⟨q, hq, v, rfl, hu, hl, hc⟩
      · exact ⟨q, by rw [built]; exact hfind q (hord q hq), rfl, by rw [hnew q (hord q hq), hu]; rfl, .inl ⟨hend hl, hc⟩⟩
      · exact ⟨q, by rw [built]; exact hfind q (hord q hq), rfl, by rw [hnew q (hord q hq), hu]; rfl, .inr ⟨v, by rw [built]; exact hend hl, hc⟩⟩
    | hookPanic n =>
      rcases hlast with ⟨q, hq, rfl, hu, hl, hc⟩ | ⟨q, hq, rfl, hu, hl, hc⟩ | ⟨q, hq, v, rfl, hu, hl, hc⟩
      · exact ⟨q, by rw [built]; exact hfind q hq, rfl, by rw [hnew q hq, hu]; rfl, .inl ⟨hend hl, hc⟩⟩
      · exact ⟨q, by rw [built]; exact hfind q (hord q hq), rfl, by rw [hnew q (hord q hq), hu]; rfl, .inr (.inl ⟨hend hl, hc⟩)⟩
      · exact ⟨q, by rw [built]; exact hfind q (hord q hq), rfl, by rw [hnew q (hord q hq), hu]; rfl, .inr (.inr ⟨v, by rw [built]; exact hend hl, hc⟩)⟩
    | badLiveFuncs n =>
      obtain ⟨q, hq, rfl, hl, hc⟩ := hlast
      exact ⟨q, by rw [built]; exact hfind q (hord q hq), rfl, hend hl, hc⟩
    | badLiveTypes n =>
      obtain ⟨q, hq, rfl, hl, hc⟩ := hlast
      exact ⟨q, by rw [built]; exact hfind q (hord q hq), rfl, hend hl, hc⟩
    | rebuilt d n =>
      obtain ⟨P, Q, rfl, rfl, hP, hu, hq, x, hx, hxQ⟩ := hfail
      have hQ : Q ∈ sb.pm.pluginMap.vals := GoMap.mem_vals.mpr ⟨_, hxQ⟩
      rw [ErrorTrue, built]
      exact ⟨P, Q, hfind P hP, rfl, by rw [hnew P hP, hu]; rfl, hfind Q hQ, rfl, by rw [hnew Q hQ, hq]; rfl, x, hx, hxQ⟩
    | cyclic names => exact hcyc names rfl
    | importNotStructPtr n => exact himp
    | anonymousField f n => exact himp
    | unknownDep f n => exact himp
    | depReloadable n d => exact himp
    | notAssignable d n f => exact himp
    | dupLiveFunc a b c => exact hdup
    | dupLiveType a b c => exact hdup
    | _ => exact hfail.elim
  | inr q =>
    simp only [errOf] at himp hdup hcyc ⊢
    cases q with
    | nilDeref =>
      obtain ⟨P, hP, hu, d, hd, hn⟩ := hfail
      rw [ErrorTrue, built]
      exact ⟨rfl, .inr ⟨P, hfind P hP, by rw [hnew P hP, hu]; rfl, d, hd, hn⟩⟩
    | setUnexported => exact ⟨rfl, himp⟩
    | user =>
      obtain ⟨P, hP, hc⟩ := hlast
      refine .inr ⟨rfl, P, by rw [built]; exact hfind P (hord P hP), ?_⟩
      rcases hc with ⟨h1, h2⟩ | ⟨h1, h2⟩
      · exact .inl ⟨hend h1, h2⟩
      · exact .inr ⟨hend h1, h2⟩
    | unknownNote => exact hfail.elim
    | orderBroken => exact hfail.elim

/-- **C53.** Whenever a call returns an error, the error is a true statement about that call: what it says about the directory, the whitelist, the file, the hook, the import, the
dependency, the live name or the callback is so; if it is about a hook or a callback, that was the last one called. The errors for internal inconsistencies never occur. -/
theorem C53_error_is_true {cfg : Config} (hcfg : cfg.OK) {m : Machine} (h : Reachable cfg m) (env : Env) (k : Kind) {e : Err}
    (hr : (plan cfg env k m.current m.next).res = .err e) : ErrorTrue cfg env k m.current (plan cfg env k m.current m.next) e := by
  have hv := view hcfg h env k
  have hgood := sound_old hcfg h
  have himp := C19_error_is_true hcfg h env k hr
  have hdup := C23_error_is_true hcfg h env k hr
  have hcyc : ∀ names, e = .cyclic names → WalksBack (plan cfg env k m.current m.next).built names := by
    rintro names rfl
    obtain ⟨pre, last, h1, h2, h3, _⟩ := C05_error_shows_cycle hcfg h env hr
    exact ⟨pre, last, h1, h2, h3⟩
  generalize plan cfg env k m.current m.next = p at *
  cases hv with
  | listErr e' dyn why acts res =>
    rw [hr] at res; cases res
    rcases why with ⟨h, rfl⟩ | ⟨absDir, entries, hd, hw⟩
    · exact h
    · unfold whitelistError at hw
      split at hw
      · cases hw
      · rename_i hwl
        have hwl' : cfg.whitelist ≠ [] := by simpa using hwl
        simp only at hw
        split at hw
        · rename_i hne
          cases hw
          refine ⟨absDir, entries, hd, ?_, ?_⟩
          · by_cases hnd : cfg.whitelist.Nodup
            · left
              intro hnil
              refine hne ((found_perm hwl').mpr ((List.perm_ext_iff_of_nodup eraseDups_nodup hnd).mpr ?_))
              intro v
              constructor
              · intro hv
                rw [List.mem_eraseDups, List.mem_map] at hv
                obtain ⟨n, hn, rfl⟩ := hv
                obtain ⟨e, he, ⟨_, _, h⟩, rfl⟩ := mem_qualifying.mp hn
                exact h.resolve_left hwl'
              · intro hv
                have := List.filter_eq_nil_iff.mp hnil v hv
                simpa using this
            · exact .inr hnd
          · intro hreal w
            rw [List.mem_filter]
            constructor
            · rintro ⟨hw, hc⟩
              refine ⟨hw, fun hp => ?_⟩
              have := (present_iff hreal hw).mpr hp
              simp only [Bool.not_eq_true', List.contains_eq_mem, decide_eq_false_iff_not] at hc
              exact hc this
            · rintro ⟨hw, hp⟩
              refine ⟨hw, ?_⟩
              simp only [Bool.not_eq_true', List.contains_eq_mem, decide_eq_false_iff_not]
              exact fun h => hp ((present_iff hreal hw).mp h)
        · cases hw
  | empty absDir entries dyn dir wl none acts res => rw [hr] at res; cases res
  | escaped ext panics acts res => rw [hr] at res; cases res
  | staticMissing sps e' st kl sel acts res =>
    rw [hr] at res; cases res
    unfold staticSelection at sel
    split at sel
    · cases sel
    · obtain ⟨n, rfl, h2, h3⟩ := selectStatic_err sel
      exact ⟨h2, sps, st, h3⟩
  | dynCb absDir entries dyn dir wl some s0 s1 s cr done cbs n o rest split bad good acts res next built =>
    rw [hr] at res; cases res
    refine ⟨n, o, by rw [split]; simp, bad, _, by
      rw [acts, built]; exact endsWith_cleanup (by simp [cbActs]; rfl) _ _⟩
  | staticCb sps sel st kl hsel s0 s1 s cr done cbs n o rest split bad good acts res next built =>
    rw [hr] at res; cases res
    refine ⟨n, o, by rw [split]; simp, bad, _, by
      rw [acts, built]; exact endsWith_cleanup (by simp [cbActs]; rfl) _ _⟩
  | dynOk absDir entries dyn dir wl some s0 s1 s d cr done good details acts res => rw [hr] at res; cases res
  | staticOk sps sel st kl hsel s0 s1 s d cr done good details acts res => rw [hr] at res; cases res
  | dynErr absDir entries dyn dir wl some s0 sb f cr failed body acts res next built =>
    rw [hr] at res
    injection res with he
    subst he
    cases failed with
    | early base why =>
      cases f with
      | inr q => exact why.elim
      | inl e =>
        simp only [errOf]
        cases e with
        | duplicateName key => exact ⟨absDir, entries, dir, two_of_count why.2⟩
        | readFile f => exact ⟨⟨absDir, entries, dir, why.2.2.1⟩, why.2.2.2⟩
        | loading n e =>
          obtain ⟨_, f, hf, h1, h2, h3, _⟩ := why
          exact .inl ⟨f, ⟨absDir, entries, dir, hf⟩, h1, h2, h3⟩
        | panicked c q =>
          obtain ⟨_, ⟨rfl, rfl, f, hf, h1, h2⟩ | ⟨rfl, f, hf, h1, h2, h3, _, h4⟩⟩ := why
          · exact ⟨rfl, .inl ⟨f, ⟨absDir, entries, dir, hf⟩, h1, h2⟩⟩
          · exact .inl ⟨f, ⟨absDir, entries, dir, hf⟩, h1, h2, h3, by rw [acts]; exact endsWith_cleanup h4 _ _⟩
        | _ => exact why.elim
    | late s1 done why => exact late_true hgood done.base.keyed why acts built body.origin himp hdup hcyc
  | staticErr sps sel st kl hsel s0 sb f cr failed body acts res next built =>
    rw [hr] at res
    injection res with he
    subst he
    cases failed with
    | early base why =>
      cases f with
      | inr q => exact why.elim
      | inl e =>
        simp only [errOf]
        cases e with
        | loading n e =>
          obtain ⟨sp, h1, h2⟩ := why
          exact .inr ⟨sps, sp, st, ((staticSelection_ok hsel n sp).mp h1).1, h2⟩
        | _ => exact why.elim
    | late s1 done why => exact late_true hgood done.base.keyed why acts built body.origin.weaken himp hdup hcyc

/-- **C53**, for errors returned in a history. -/
theorem C53_history {cfg : Config} (hcfg : cfg.OK) {m : Machine} (h : Reachable cfg m) {a b : History} {t : Nat} {k : Kind} {e : Err}
    (he : m.trace = a ++ (t, .returned k (.err e)) :: b) :
    ∃ m0 env, Reachable cfg m0 ∧ ErrorTrue cfg env k m0.current (plan cfg env k m0.current m0.next) e ∧ (plan cfg env k m0.current m0.next).res = .err e ∧
      ∃ t0 c, a = m0.trace ++ (t0, .called k) :: c ∧ actsOf c = (plan cfg env k m0.current m0.next).acts := by
  obtain ⟨m0, env, t0, c, hl⟩ := executed h a t k _ b he
  have hr := hl.res_eq
  have := C53_error_is_true hcfg hl.reach env k hr.symm
  exact ⟨m0, env, hl.reach, this, hr.symm, t0, c, hl.trace, by simpa using hl.acts⟩

end

section Examples
open Demo
attribute [local instance] Demo.rt

/-- The hypotheses are met: in the reachable state `m2` a reload fails because `OnInit` of `app` returns an error. -/
example : Reachable cfg m2 ∧ ∃ e, (plan cfg env5 (.reload none) m2.current m2.next).res = .err e ∧ e = .hookErr "app".toList := by
  have hx : error? (plan cfg env5 (.reload none) m2.current m2.next).res = some (.hookErr "app".toList) := by decide +kernel
  refine ⟨m2_reachable, ?_⟩
  cases hr : (plan cfg env5 (.reload none) m2.current m2.next).res with
  | ok d => rw [hr] at hx; cases hx
  | panic q => rw [hr] at hx; cases hx
  | err e => rw [hr] at hx; exact ⟨e, rfl, by simpa [error?] using hx⟩

end Examples

end Hotswap
