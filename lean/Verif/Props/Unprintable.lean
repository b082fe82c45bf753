import Verif.Proofs.UnprintableRun
import Verif.Props.Hostile
import Verif.Props.PanicNil

/-!
# Panic values that cannot be printed: C93
-/

namespace Hotswap

section
variable [GoRuntime]

/-- **C93.** The value `v` can be printed iff no method that `fmt` calls on it and that is not called on a nil pointer panics with a value that itself makes a method panic that is not called on a nil pointer. -/
theorem C93_printable {V : Type} (F : Printer V) (v : V) : F.print v = none ↔
    ∀ c ∈ F.plus v, ∀ w, c.nilRecv = false → c.panics = some w → ∀ d ∈ F.plain w, d.nilRecv = false → d.panics = none := by
  have hn : ∀ w, F.nested w = none ↔ ∀ d ∈ F.plain w, d.nilRecv = false → d.panics = none := by
    intro w
    unfold Printer.nested
    rw [List.findSome?_eq_none_iff]
    constructor
    · intro h d hd hr
      have := h d hd
      simpa [hr] using this
    · intro h d hd
      cases hr : d.nilRecv with
      | true => rfl
      | false => simpa using h d hd hr
  unfold Printer.print
  rw [List.findSome?_eq_none_iff]
  constructor
  · intro h c hc w hr hp
    have := h c hc
    rw [hr, hp] at this
    exact (hn w).mp this
  · intro h c hc
    cases hr : c.nilRecv with
    | true => rfl
    | false =>
      cases hp : c.panics with
      | none => rfl
      | some w => exact (hn w).mpr (h c hc w hr hp)

/-- **C93.** The value with which `fmt` then panics is the one with which the second method has panicked. -/
theorem C93_escaping_value {V : Type} (F : Printer V) (v x : V) (h : F.print v = some x) :
    ∃ c ∈ F.plus v, ∃ w, c.nilRecv = false ∧ c.panics = some w ∧ ∃ d ∈ F.plain w, d.nilRecv = false ∧ d.panics = some x := by
  unfold Printer.print at h
  obtain ⟨c, hc, hx⟩ := List.exists_of_findSome?_eq_some h
  cases hr : c.nilRecv with
  | true => rw [hr] at hx; cases hx
  | false =>
    rw [hr] at hx
    simp only [Bool.false_eq_true, if_false] at hx
    cases hp : c.panics with
    | none => rw [hp] at hx; cases hx
    | some w =>
      rw [hp] at hx
      simp only [Option.bind_some] at hx
      unfold Printer.nested at hx
      obtain ⟨d, hd, hy⟩ := List.exists_of_findSome?_eq_some hx
      refine ⟨c, hc, w, hr, hp, d, hd, ?_⟩
      cases hr' : d.nilRecv with
      | true => rw [hr'] at hy; cases hy
      | false => rw [hr'] at hy; exact ⟨rfl, by simpa using hy⟩

theorem plan_ext {p q : Plan} (h : p.asRun = q.asRun) : p = q := by
  have h1 : p.res = q.res := congrArg Prod.fst h
  have h2 : p.acts = q.acts := congrArg (·.2.acts) h
  have h3 : p.next = q.next := congrArg (·.2.next) h
  have h4 : p.built = q.built := congrArg (·.2.pm) h
  cases p; cases q
  simp only at h1 h2 h3 h4
  rw [h1, h2, h3, h4]

/-- A panic of plugin code or a callback ends the call `p`, and its value `v` cannot be printed. -/
inductive Unprintable {V : Type} (F : Printer V) (v : V) (cfg : Config) (env : Env) (k : Kind) (p : Plan) : Prop
  /-- in a hook with a handler of its own -/
  | hook (e : Err) (w : V) (res : p.res = .err e) (hook : HookPanicked e) (bad : F.print v = some w)
  /-- in the initialisation of a plugin, `HotswapLiveFuncs` or `HotswapLiveTypes` -/
  | direct (e : Err) (w : V) (res : p.res = .err e) (direct : DirectPanicked e) (bad : F.print v = some w)
  /-- in a callback -/
  | callback (w : V) (res : p.res = .err .callback) (panics : CallbackPanics (callbacks cfg env k)) (bad : F.print v = some w)

/-- **C93.** In all other cases nothing is different. -/
theorem C93_otherwise_the_same {V : Type} (F : Printer V) (v : V) (cfg : Config) (env : Env) (k : Kind) (old : Option Manager) (n0 : Nat)
    (h : ¬ Unprintable F v cfg env k (plan cfg env k old n0)) : planU F v cfg env k old n0 = plan cfg env k old n0 := by
  have hr := plan_rel F v cfg env k old n0
  generalize hx : (plan cfg env k old n0).asRun = r at hr
  generalize hy : (planU F v cfg env k old n0).asRun = r' at hr
  cases hr with
  | same x s calm => exact plan_ext (hy.trans hx.symm)
  | second e cur w s hh hc hv hw => exact absurd (.hook e w (congrArg Prod.fst hx) hh hv) h
  | escapes e s why ends =>
    have hres : (plan cfg env k old n0).res = .err e := congrArg Prod.fst hx
    obtain ⟨w, hv, hd | ⟨hh, _⟩ | ⟨rfl, hc⟩⟩ := why
    · exact absurd (.direct e w hres hd hv) h
    · exact absurd (.hook e w hres hh hv) h
    · exact absurd (.callback w hres hc hv) h

/-- **C93.** In particular if the value can be printed. -/
theorem C93_prints {V : Type} (F : Printer V) (v : V) (cfg : Config) (env : Env) (k : Kind) (old : Option Manager) (n0 : Nat) (h : F.print v = none) :
    planU F v cfg env k old n0 = plan cfg env k old n0 := by
  refine C93_otherwise_the_same F v cfg env k old n0 ?_
  rintro (⟨e, w, _, _, hv⟩ | ⟨e, w, _, _, hv⟩ | ⟨w, _, _, hv⟩) <;> (rw [h] at hv; cases hv)

/-- **C93.** The second chance of a hook: if the value with which its handler panics can be printed, the call returns another error (the one of a panic outside the hooks), and is the same otherwise. -/
theorem C93_second_chance {V : Type} (F : Printer V) (v w : V) (cfg : Config) (env : Env) (k : Kind) (old : Option Manager) (n0 : Nat) {e : Err}
    (hres : (plan cfg env k old n0).res = .err e) (hh : HookPanicked e) (hv : F.print v = some w) (hw : F.print w = none) :
    ∃ cur, planU F v cfg env k old n0 = { plan cfg env k old n0 with res := .err (.panicked cur .user) } := by
  have hr := plan_rel F v cfg env k old n0
  generalize hx : (plan cfg env k old n0).asRun = r at hr
  generalize hy : (planU F v cfg env k old n0).asRun = r' at hr
  cases hr with
  | same x s calm =>
    have hxe : x = .err e := (congrArg Prod.fst hx).symm.trans hres
    rcases calm e hxe with h | ⟨h, _⟩
    · rw [hv] at h; cases h
    · exact absurd hh h
  | second e' cur w' s h1 hc h2 h3 =>
    refine ⟨cur, plan_ext (hy.trans ?_)⟩
    rw [Plan.asRun] at hx ⊢
    injection hx with _ hx
    rw [← hx]
  | escapes e' s why ends =>
    have hxe : (Exit.err e' : Result) = .err e := (congrArg Prod.fst hx).symm.trans hres
    injection hxe with hxe
    subst hxe
    obtain ⟨w', h1, hd | ⟨_, h2⟩ | ⟨rfl, _⟩⟩ := why
    · cases hd; cases hh
    · rw [hv] at h1; injection h1 with h1; subst h1; exact absurd hw h2
    · cases hh

/-- What makes the panic escape. -/
theorem C93_escape {V : Type} (F : Printer V) (v : V) {cfg : Config} (hcfg : cfg.OK) {m : Machine} {L : List Nat} (h : WReachable cfg m L) (env : Env) (k : Kind) (hk : refused cfg k = false)
    {e : Err} (hres : (plan cfg env k m.current m.next).res = .err e)
    (hnot : ∀ w, F.print v = some w → ¬ (HookPanicked e ∧ F.print w = none)) (hu : Unprintable F v cfg env k (plan cfg env k m.current m.next)) :
    Escapes (plan cfg env k m.current m.next) (planU F v cfg env k m.current m.next) := by
  have hs : Shape cfg k m.current m.next (plan cfg env k m.current m.next) := (plan_view (env := env) (k := k) hcfg (h.sound hcfg)).shape hk
  have hr := plan_rel F v cfg env k m.current m.next
  generalize hx : (plan cfg env k m.current m.next).asRun = r at hr
  generalize hy : (planU F v cfg env k m.current m.next).asRun = r' at hr
  cases hr with
  | same x s calm =>
    have hxe : x = .err e := (congrArg Prod.fst hx).symm.trans hres
    exfalso
    rcases calm e hxe with hn | ⟨h1, h2, h3⟩
    · rcases hu with ⟨e', w, _, _, hv⟩ | ⟨e', w, _, _, hv⟩ | ⟨w, _, _, hv⟩ <;> (rw [hn] at hv; cases hv)
    · rcases hu with ⟨e', w, he, hh, _⟩ | ⟨e', w, he, hh, _⟩ | ⟨w, he, hc, _⟩
      · rw [hres] at he; injection he with he; subst he; exact h1 hh
      · rw [hres] at he; injection he with he; subst he; exact h2 hh
      · rw [hres] at he; injection he with he; exact h3 he hc
  | second e' cur w s hh hc hv hw =>
    have hxe : (Exit.err e' : Result) = .err e := (congrArg Prod.fst hx).symm.trans hres
    injection hxe with hxe
    subst hxe
    exact absurd ⟨hh, hw⟩ (hnot w hv)
  | escapes e' s why ends => exact escapes_of hs hx hy ends

/-- **C93.** A hook whose panic can be printed neither by its own handler nor by that of the load. -/
theorem C93_hook {V : Type} (F : Printer V) (v w : V) {cfg : Config} (hcfg : cfg.OK) {m : Machine} {L : List Nat} (h : WReachable cfg m L) (env : Env) (k : Kind) (hk : refused cfg k = false)
    {e : Err} (hres : (plan cfg env k m.current m.next).res = .err e) (hh : HookPanicked e) (hv : F.print v = some w) (hw : F.print w ≠ none) :
    Escapes (plan cfg env k m.current m.next) (planU F v cfg env k m.current m.next) :=
  C93_escape F v hcfg h env k hk hres (fun w' h1 h2 => by rw [hv] at h1; injection h1 with h1; subst h1; exact hw h2.2) (.hook e w hres hh hv)

/-- **C93.** The initialisation of a plugin, `HotswapLiveFuncs`, `HotswapLiveTypes`: only the handler of the load. -/
theorem C93_direct {V : Type} (F : Printer V) (v : V) {cfg : Config} (hcfg : cfg.OK) {m : Machine} {L : List Nat} (h : WReachable cfg m L) (env : Env) (k : Kind) (hk : refused cfg k = false)
    {e : Err} (hres : (plan cfg env k m.current m.next).res = .err e) (hh : DirectPanicked e) (hv : F.print v ≠ none) :
    Escapes (plan cfg env k m.current m.next) (planU F v cfg env k m.current m.next) := by
  cases hw : F.print v with
  | none => exact absurd hw hv
  | some w => exact C93_escape F v hcfg h env k hk hres (fun w' _ h2 => by cases hh; cases h2.1) (.direct e w hres hh hw)

/-- **C93.** A reload callback: only the handler around it, and the manager that has been built is not freed. -/
theorem C93_callback {V : Type} (F : Printer V) (v : V) {cfg : Config} (hcfg : cfg.OK) {m : Machine} {L : List Nat} (h : WReachable cfg m L) (env : Env) (k : Kind) (hk : refused cfg k = false)
    (hres : (plan cfg env k m.current m.next).res = .err .callback) (hc : CallbackPanics (callbacks cfg env k)) (hv : F.print v ≠ none) :
    Escapes (plan cfg env k m.current m.next) (planU F v cfg env k m.current m.next) := by
  cases hw : F.print v with
  | none => exact absurd hw hv
  | some w => exact C93_escape F v hcfg h env k hk hres (fun w' _ h2 => by cases h2.1) (.callback w hres hc hw)

/-- **C93.** In the histories of C91 such a call is one that is ended at the same place by the step that also stands for `runtime.Goexit`: so what C91 says of a call that is ended there holds of it. `Current()`, `ReloadCounter()` and the delayed frees
are as before, the lock is free, and what is lost is everything the call had entered in its manager. -/
theorem C93_in_hostile_histories {cfg : Config} {m : Machine} (hr : m.running = none) {env : Env} {k : Kind} (hk : refused cfg k = false) {q : Plan}
    (hq : Escapes (plan cfg env k m.current m.next) q) :
    ∃ m2 m3, WLater cfg m m2 ∧ m2.wstep cfg .exitCall = some m3 ∧ m3.trace = m.trace ++ (m.now, Ev.called k) :: q.acts.map (fun a => (m.now, Ev.act a)) ∧
      m3.running = none ∧ m3.current = m.current ∧ m3.counter = m.counter ∧ m3.frees = m.frees ∧ m3.next = q.next ∧ (m2.wLoses .exitCall).Perm (acquired q.acts) :=
  escape_run hr hk hq

end

namespace Demo

attribute [local instance] rt

/-- Value `n + 1` has a method that panics with value `n`. -/
def nested : Printer Nat where
  plus := fun v => [⟨false, if v = 0 then none else some (v - 1)⟩]
  plain := fun v => [⟨false, if v = 0 then none else some (v - 1)⟩]

example : nested.print 1 = none ∧ nested.print 2 = some 0 ∧ nested.print 4 = some 2 ∧ nested.print (2 : Nat) ≠ none := by decide

/-- A method called on a nil pointer does no harm. -/
example : (⟨fun _ => [⟨true, some 1⟩], fun _ => [⟨false, some 1⟩]⟩ : Printer Nat).print 1 = none := by decide

/-- `app` has changed; its `OnLoad` panics. -/
def envLoadPanic : Env := env both (fs 10 21 goodBase { goodApp with onLoad := fun _ => .panics })

/-- The hypotheses of `C93_hook`: the reload panics, and one reference of `base` and one of the new `app` are not given back. -/
example : WReachable cfg m1 [] ∧ (∃ e, (plan cfg envLoadPanic (.reload none) m1.current m1.next).res = .err e ∧ HookPanicked e) ∧ nested.print 4 = some 2 ∧ nested.print 2 ≠ none ∧
    acquired (planU nested 4 cfg envLoadPanic (.reload none) m1.current m1.next).acts = [2, 4] :=
  ⟨(C91_with_nil (m1_reachable.nil cfg_ok)), ⟨.hookPanic "app".toList, err_of (by decide +kernel), .late _⟩, by decide, by decide, by decide +kernel⟩

/-- The hypotheses of `C93_second_chance`, and the error. -/
example : (∃ e, (plan cfg envLoadPanic (.reload none) m1.current m1.next).res = .err e ∧ HookPanicked e) ∧ nested.print 2 = some 0 ∧ nested.print 0 = none ∧
    error? (planU nested 2 cfg envLoadPanic (.reload none) m1.current m1.next).res = some (.panicked none .user) :=
  ⟨⟨.hookPanic "app".toList, err_of (by decide +kernel), .late _⟩, by decide, by decide, by decide +kernel⟩

/-- The hypotheses of `C93_direct`. -/
example : (∃ e, (plan cfg envLivePanic (.reload none) m1.current m1.next).res = .err e ∧ DirectPanicked e) ∧
    (∃ e, (plan cfg envOpenPanic (.reload none) m1.current m1.next).res = .err e ∧ DirectPanicked e) ∧
    (match (planU nested 2 cfg envOpenPanic (.reload none) m1.current m1.next).res with | .panic .user => true | _ => false) = true :=
  ⟨⟨_, err_of (e := .panicked none .user) (by decide +kernel), .mk _⟩, ⟨_, err_of (e := .panicked (some "app".toList) .user) (by decide +kernel), .mk _⟩, by decide +kernel⟩

/-- The hypotheses of `C93_callback`: the new manager has been initialised, and is lost. -/
example : (plan cfg env2 (.reload (some .panics)) m1.current m1.next).res = .err .callback ∧ CallbackPanics (callbacks cfg env2 (.reload (some .panics))) ∧
    (match (planU nested 2 cfg env2 (.reload (some .panics)) m1.current m1.next).res with | .panic .user => true | _ => false) = true ∧
    (planU nested 2 cfg env2 (.reload (some .panics)) m1.current m1.next).built.plugins.map (·.inst) = [2, 4] :=
  ⟨err_of (by decide +kernel), ⟨[(0, .ok)], 1, [], by decide +kernel, by decide⟩, by decide +kernel, by decide +kernel⟩

/-- The hypotheses of `C93_in_hostile_histories`. -/
example : m1.running = none ∧ refused cfg (.reload none) = false ∧ Escapes (plan cfg envLoadPanic (.reload none) m1.current m1.next) (planU nested 4 cfg envLoadPanic (.reload none) m1.current m1.next) :=
  ⟨by decide +kernel, by decide, C93_hook nested 4 2 cfg_ok (C91_with_nil (m1_reachable.nil cfg_ok)) envLoadPanic (.reload none) (by decide) (err_of (e := .hookPanic "app".toList) (by decide +kernel)) (.late _) (by decide) (by decide)⟩

end Demo

end Hotswap
