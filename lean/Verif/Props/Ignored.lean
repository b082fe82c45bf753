import Verif.Proofs.SimMachine
import Verif.Props.Imports

/-!
# C19: ignored import fields influence nothing

Nor do `InvokeFunc` and the panics of `OnFree` (C29).
-/

namespace Hotswap

section
variable [GoRuntime]

/-! ### alike means: the same essence -/

theorem ImportAlike.iff {a b : Ret ImportRet} : ImportAlike a b ↔ a.map ImportRet.ess = b.map ImportRet.ess := by
  cases a with
  | panics => cases b <;> simp [ImportAlike, Ret.map]
  | ret x =>
    cases b with
    | panics => simp [ImportAlike, Ret.map]
    | ret y =>
      cases x; cases y
      simp [ImportAlike, Ret.map, ImportRet.ess]

theorem CodeAlike.ess {a b : Code} (h : CodeAlike a b) : a.ess = b.ess := by
  obtain ⟨h1, h2, h3, h4, h5, h6, h7⟩ := h
  unfold Code.ess
  rw [h1, h2, ImportAlike.iff.mp h3, h4, h5, h6, h7]

theorem CodeAlike.of_ess {a b : Code} (h : a.ess = b.ess) : CodeAlike a b := by
  unfold Code.ess at h
  injection h with h1 h2 h3 h4 h5 _ _ h6 h7
  exact ⟨h1, h2, ImportAlike.iff.mpr h3, h4, h5, h6, h7⟩

theorem OpenAlike.ess {a b : OpenRes} (h : OpenAlike a b) : a.ess = b.ess := by
  cases a <;> cases b <;> simp only [OpenAlike] at h <;> try rfl
  obtain ⟨rfl, h⟩ := h
  simp only [OpenRes.ess, h.ess]

theorem EnvAlike.ess {a b : Env} (h : EnvAlike a b) : a.ess = b.ess := by
  obtain ⟨h1, h2, h3, h4, h5, h6, h7, h8⟩ := h
  unfold Env.ess FS.ess
  rw [h1, h2, h3, h4, h5, h6, h7]
  congr 2
  funext f
  exact (h8 f).ess

theorem ConfigAlike.ess {a b : Config} (h : ConfigAlike a b) : a.ess = b.ess := by
  obtain ⟨h1, h2, h3, h4, h5, h6⟩ := h
  unfold Config.ess
  rw [h1, h2, h3, h4]
  congr 1
  cases ha : a.static with
  | none =>
    cases hb : b.static with
    | none => rfl
    | some y => rw [ha, hb] at h5; cases h5
  | some x =>
    cases hb : b.static with
    | none => rw [ha, hb] at h5; cases h5
    | some y =>
      simp only [Option.map_some, Option.some.injEq]
      apply GoMap.ext
      have := h6 x y ha hb
      simp only [GoMap.mapV]
      generalize x.entries = xs at this ⊢
      generalize y.entries = ys at this ⊢
      induction this with
      | nil => rfl
      | cons e _ ih =>
        obtain ⟨e1, e2, e3, e4⟩ := e
        simp only [List.map_cons, ih, List.cons.injEq, and_true, Prod.mk.injEq, e1, true_and]
        unfold StaticPlugin.ess
        rw [e2, e3, e4.ess]

theorem PluginAlike.of_ess {a b : Plugin} (h : a.ess = b.ess) : PluginAlike a b := by
  cases a; cases b
  simp only [Plugin.ess, Plugin.mk.injEq] at h
  obtain ⟨rfl, rfl, rfl, rfl, rfl, rfl, rfl, h8, rfl, rfl, rfl, rfl⟩ := h
  exact ⟨rfl, CodeAlike.of_ess h8⟩

omit [GoRuntime] in
theorem forall2_of_map {α β : Type} {f : α → β} {R : α → α → Prop} (hR : ∀ a b, f a = f b → R a b) : ∀ {l r : List α}, l.map f = r.map f → List.Forall₂ R l r
  | [], [], _ => .nil
  | [], _ :: _, h => by cases h
  | _ :: _, [], h => by cases h
  | a :: l, b :: r, h => by
    simp only [List.map_cons, List.cons.injEq] at h
    exact .cons (hR _ _ h.1) (forall2_of_map hR h.2)

theorem ManagerAlike.of_ess {a b : Manager} (h : a.ess = b.ess) : ManagerAlike a b := by
  have h' := h
  simp only [Manager.ess, Manager.mk.injEq] at h
  obtain ⟨h1, h2, h3, h4⟩ := h
  refine ⟨h1, h4, forall2_of_map (fun _ _ => PluginAlike.of_ess) h3, fun n => ?_⟩
  have := congrArg (fun m => GoMap.get? m (name2key n)) h2
  simp only [GoMap.get?_mapV] at this
  unfold Manager.findPlugin
  cases ha : a.pluginMap.get? (name2key n) with
  | none =>
    cases hb : b.pluginMap.get? (name2key n) with
    | none => exact .none
    | some y => rw [ha, hb] at this; cases this
  | some x =>
    cases hb : b.pluginMap.get? (name2key n) with
    | none => rw [ha, hb] at this; cases this
    | some y =>
      rw [ha, hb] at this
      exact .some (PluginAlike.of_ess (Option.some.inj this))

theorem ActAlike.of_ess {a b : Act} (h : a.ess = b.ess) : ActAlike a b := by
  cases a <;> cases b <;> simp only [Act.ess, Act.spawnFree.injEq, Act.publish.injEq] at h <;>
    first
    | exact .spawnFree (.of_ess h)
    | exact .publish (.of_ess h)
    | (cases h; done)
    | (cases h; exact .same _)

theorem EvAlike.of_ess {x y : Nat × Ev} (h : (x.1, x.2.ess) = (y.1, y.2.ess)) : EvAlike x y := by
  obtain ⟨t, a⟩ := x
  obtain ⟨t', b⟩ := y
  simp only [Prod.mk.injEq] at h
  obtain ⟨rfl, h⟩ := h
  cases a <;> cases b <;> simp only [Ev.ess, Ev.act.injEq] at h <;>
    first
    | exact .act _ (.of_ess h)
    | (cases h; done)
    | (cases h; exact .same _)

theorem LabelAlike.ess {a b : Label} (h : LabelAlike a b) : a.ess = b.ess := by
  cases h with
  | call k h => simp only [Label.ess, h.ess]
  | same => rfl

/-! ### C19 -/

theorem run_ess {cfg cfg' : Config} (hc : cfg.ess = cfg'.ess) {ls ls' : List Label} {m m' n : Machine} (hl : List.Forall₂ LabelAlike ls ls') (he : m.ess = m'.ess)
    (hr : Run cfg m ls n) : ∃ n', Run cfg' m' ls' n' ∧ n.ess = n'.ess := by
  induction hl generalizing m m' with
  | nil =>
    cases hr
    exact ⟨m', .nil _, he⟩
  | cons hl _ ih =>
    rename_i l l' r r' _
    cases hr with
    | cons hs hr =>
      have h1 := Machine.step_ess cfg m l
      have h2 := Machine.step_ess cfg' m' l'
      rw [hc, he, hl.ess, h2, hs] at h1
      cases hs' : m'.step cfg' l' with
      | none => rw [hs'] at h1; cases h1
      | some m1' =>
        rw [hs'] at h1
        obtain ⟨n', hr', hn⟩ := ih (Option.some.inj h1).symm hr
        exact ⟨n', .cons hs' hr', hn⟩

/-- **C19.** What the first call does and returns does not depend on the import fields that are tagged `hotswap:"-"` or whose names do not begin with an upper-case byte: in alike
environments (and with alike statically linked plugins) it returns the same result and performs the same actions, in the same order, on alike managers. -/
theorem C19_ignored_fields_call {cfg cfg' : Config} (hc : ConfigAlike cfg cfg') {env env' : Env} (he : EnvAlike env env') (k : Kind) (n : Nat) :
    (plan cfg env k none n).res = (plan cfg' env' k none n).res ∧
    List.Forall₂ ActAlike (plan cfg env k none n).acts (plan cfg' env' k none n).acts := by
  have h := plan_ess cfg env k none n
  have h' := plan_ess cfg' env' k none n
  rw [hc.ess, he.ess, h'] at h
  exact ⟨(congrArg Plan.res h).symm, forall2_of_map (fun _ _ => ActAlike.of_ess) (congrArg Plan.acts h).symm⟩

/-- **C19, C29.** Whole histories: if two programs differ only in import fields that do not count, in the behaviour of `InvokeFunc` and in panics of `OnFree`, then whatever steps
one can take (calls, interleavings, delayed frees, reads) the other can take too, with the same observable events at the same times, the same results, the same counter, and alike
current managers. -/
theorem C19_ignored_fields {cfg cfg' : Config} (hc : ConfigAlike cfg cfg') {ls ls' : List Label} (hl : List.Forall₂ LabelAlike ls ls') {m : Machine} (hr : Run cfg .init ls m) :
    ∃ m', Run cfg' .init ls' m' ∧ List.Forall₂ EvAlike m.trace m'.trace ∧ m.counter = m'.counter ∧ Option.Rel ManagerAlike m.current m'.current := by
  obtain ⟨m', hr', he⟩ := run_ess hc.ess hl (m' := .init) rfl hr
  refine ⟨m', hr', forall2_of_map (f := fun e : Nat × Ev => (e.1, e.2.ess)) (fun _ _ => EvAlike.of_ess) (congrArg Machine.trace he), ?_, ?_⟩
  · have := congrArg Machine.counter he
    exact this
  · have := congrArg Machine.current he
    simp only [Machine.ess] at this
    cases ha : m.current with
    | none =>
      cases hb : m'.current with
      | none => exact .none
      | some y => rw [ha, hb] at this; cases this
    | some x =>
      cases hb : m'.current with
      | none => rw [ha, hb] at this; cases this
      | some y =>
        rw [ha, hb] at this
        exact .some (.of_ess (Option.some.inj this))

end

/-! ### concrete cases -/

section
attribute [local instance] Demo.rt
open Demo

/-- `app` with two more fields in its import struct, one of them tagged `hotswap:"-"`; its `OnFree` panics and its `InvokeFunc` fails. -/
def noisyApp : Code :=
  { code true 2 [⟨"helper".toList, [], false, .basic 3⟩, baseField, ⟨"Nobody".toList, "-".toList, true, .basic 4⟩] with
    onFreePanics := true
    invokeFunc := fun _ _ => .panics }

theorem noisyApp_alike : CodeAlike goodApp noisyApp where
  reloadable := rfl
  exportRet := rfl
  importRet := ⟨rfl, by decide +kernel⟩
  onLoad := rfl
  onInit := rfl
  liveFuncs := rfl
  liveTypes := rfl

def noisyEnv (base app : Nat) : Env := env both (fs base app goodBase noisyApp)

theorem noisyEnv_alike (base app : Nat) : EnvAlike (env both (fs base app goodBase goodApp)) (noisyEnv base app) where
  it := rfl
  dir := rfl
  data := rfl
  cbResult := rfl
  ext := rfl
  readFile := rfl
  copyOk := rfl
  openPlugin := by
    intro f
    have base : OpenAlike (.image syms goodBase) (.image syms goodBase) := ⟨rfl, rfl, rfl, ImportAlike.iff.mpr rfl, rfl, rfl, rfl, rfl⟩
    change OpenAlike (if f = baseFile then _ else if f = appFile then _ else _) (if f = baseFile then _ else if f = appFile then _ else _)
    split
    · exact base
    · split
      · exact ⟨rfl, noisyApp_alike⟩
      · exact trivial

def noisySteps : List Label := callSteps .load (noisyEnv 10 20) 20 ++ callSteps (.reload none) (noisyEnv 10 21) 16

theorem forall2_refl {α : Type} {R : α → α → Prop} (h : ∀ a, R a a) : ∀ l : List α, List.Forall₂ R l l
  | [] => .nil
  | a :: r => .cons (h a) (forall2_refl h r)

/-- C19: its hypotheses are met by a load and a reload of two programs that really differ, and both succeed. -/
example : List.Forall₂ LabelAlike steps2 noisySteps ∧ (run cfg .init steps2).isSome = true ∧ (run cfg .init noisySteps).isSome = true ∧
    (after cfg noisySteps).counter = 1 ∧ ((after cfg noisySteps).current.map (fun pm => pm.plugins.map (·.bound.length))) = some [0, 1] := by
  refine ⟨?_, by decide +kernel, by decide +kernel, by decide +kernel, by decide +kernel⟩
  unfold steps2 noisySteps steps1 callSteps
  refine List.rel_append (.cons (.call _ (noisyEnv_alike _ _)) (forall2_refl .same _)) (.cons (.call _ (noisyEnv_alike _ _)) (forall2_refl .same _))

end

end Hotswap
