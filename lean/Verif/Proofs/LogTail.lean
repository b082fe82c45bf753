import Verif.Proofs.KeepStage

/-! What holds of the log and of the references while the hooks of a load run. -/

namespace Hotswap

variable [GoRuntime]

open LM (lift write)

/-! ### code that leaves the plugins alone -/

/-- `x` leaves the plugins and their order alone and does only actions of the kind `P`. -/
def Adds {α : Type} (P : Act → Prop) (x : M α) : Prop :=
  ∀ s, (x s).2.pm.pluginMap = s.pm.pluginMap ∧ (x s).2.pm.ordered = s.pm.ordered ∧ ∃ l, (x s).2.acts = s.acts ++ l ∧ ∀ a ∈ l, P a

section
variable {α β : Type} {P : Act → Prop}

omit [GoRuntime] in
theorem Adds.pure (a : α) : Adds P (M.pure a) := fun s => ⟨rfl, rfl, [], by simp [M.pure], by simp⟩
omit [GoRuntime] in
theorem Adds.throw (e : Err) : Adds P (M.throw e : M α) := fun s => ⟨rfl, rfl, [], by simp [M.throw], by simp⟩
omit [GoRuntime] in
theorem Adds.panic (p : Panic) : Adds P (M.panic p : M α) := fun s => ⟨rfl, rfl, [], by simp [M.panic], by simp⟩
omit [GoRuntime] in
theorem Adds.get : Adds P M.get := fun s => ⟨rfl, rfl, [], by simp [M.get], by simp⟩
omit [GoRuntime] in
theorem Adds.emit {a : Act} (h : P a) : Adds P (M.emit a) := fun s => ⟨rfl, rfl, [a], rfl, by simpa using h⟩
omit [GoRuntime] in
theorem Adds.modPm {f : Manager → Manager} (h : ∀ m, (f m).pluginMap = m.pluginMap ∧ (f m).ordered = m.ordered) : Adds P (M.modPm f) :=
  fun s => ⟨(h s.pm).1, (h s.pm).2, [], by simp [M.modPm], by simp⟩

omit [GoRuntime] in
theorem Adds.bind {x : M α} {f : α → M β} (hx : Adds P x) (hf : ∀ a, Adds P (f a)) : Adds P (M.bind x f) := by
  intro s
  obtain ⟨h1, h2, l, h3, h4⟩ := hx s
  unfold M.bind
  rcases hxs : x s with ⟨e, t⟩
  rw [hxs] at h1 h2 h3
  cases e with
  | ok a =>
    obtain ⟨g1, g2, l', g3, g4⟩ := hf a t
    refine ⟨g1.trans h1, g2.trans h2, l ++ l', ?_, ?_⟩
    · rw [g3]; change t.acts = _ at h3; rw [h3, List.append_assoc]
    · intro a ha; rcases List.mem_append.mp ha with ha | ha; exacts [h4 a ha, g4 a ha]
  | err e => exact ⟨h1, h2, l, h3, h4⟩
  | panic p => exact ⟨h1, h2, l, h3, h4⟩

omit [GoRuntime] in
theorem Adds.forEach {l : List α} {f : α → M Unit} (hf : ∀ a, Adds P (f a)) : Adds P (M.forEach l f) := by
  induction l with
  | nil => exact Adds.pure ()
  | cons a r ih => exact Adds.bind (hf a) (fun _ => ih)

end

/-- `setupVault` asks the plugins and changes the vault. -/
def Act.isVault : Act → Prop
  | .callLiveFuncs _ | .callLiveTypes _ => True
  | _ => False

theorem adds_liveFuncs (it : Iter) (before l : List Plugin) : Adds Act.isVault (setupLiveFuncs it before l) := by
  induction l generalizing before with
  | nil => exact Adds.pure _
  | cons p r ih =>
    unfold Hotswap.setupLiveFuncs
    refine Adds.bind (Adds.emit trivial) (fun _ => ?_)
    split
    · exact Adds.panic _
    · exact Adds.throw _
    · refine Adds.bind ?_ (fun _ => ih _)
      unfold addLiveFuncs
      refine Adds.forEach (fun e => Adds.bind Adds.get (fun s => ?_))
      split
      · exact Adds.modPm (fun _ => ⟨rfl, rfl⟩)
      · exact Adds.throw _

theorem adds_liveTypes (it : Iter) (before l : List Plugin) : Adds Act.isVault (setupLiveTypes it before l) := by
  induction l generalizing before with
  | nil => exact Adds.pure _
  | cons p r ih =>
    unfold Hotswap.setupLiveTypes
    refine Adds.bind (Adds.emit trivial) (fun _ => ?_)
    split
    · exact Adds.panic _
    · exact Adds.throw _
    · refine Adds.bind ?_ (fun _ => ih _)
      unfold addLiveTypes
      refine Adds.forEach (fun e => Adds.bind Adds.get (fun s => ?_))
      split
      · exact Adds.modPm (fun _ => ⟨rfl, rfl⟩)
      · exact Adds.throw _

theorem adds_vault (it : Iter) : Adds Act.isVault (setupVault it) :=
  Adds.bind Adds.get (fun _ => Adds.bind (adds_liveFuncs it [] _) (fun _ => adds_liveTypes it [] _))

/-! ### the invariant -/

theorem Releasable.congr {pm pm' : Manager} (h : Releasable pm) (hm : pm'.pluginMap = pm.pluginMap) (ho : pm'.ordered = pm.ordered) : Releasable pm' := by
  refine ⟨by rw [hm]; exact h.keyed, ?_, by rw [hm, ho]; exact h.order⟩
  have := h.nodup
  unfold Manager.insts at this ⊢
  rw [hm]; exact this

theorem SoundManager.releasable {next : Nat} {pm : Manager} (h : SoundManager next pm) : Releasable pm := ⟨h.keyed, h.nodup, .inr h.ordered⟩

/-- What the cleanup would release is what has been taken. -/
def Clean (it : Iter) (s : LoadSt) : Prop :=
  (∃ rel : List Nat, (freeOrder it s.pm).map (fun p => Act.release p.inst) = rel.map Act.release ∧ (acquired s.acts).Perm rel ∧ rel.Nodup ∧ Releasable s.pm) ∧ ∀ a ∈ s.acts, a.stage ≤ 5

/-- The lines about hooks announce the hooks, and nothing else. -/
def Told (s : LogSt) : Prop :=
  ∀ nm : Nat → Str, (∀ p ∈ s.st.pm.pluginMap.vals, nm p.inst = p.name) → s.lines.filter (fun x => x.2.isHook) = announced nm 0 s.st.acts

/-- `St` is not touched by hooks and by lines about hooks. -/
def HookClosed (St : LogSt → Prop) : Prop :=
  ∀ s s' ll la, s'.lines = s.lines ++ ll → (∀ x ∈ ll, x.2.isHook = true) → s'.st.acts = s.st.acts ++ la → (∀ a ∈ la, 2 ≤ a.stage ∧ a.stage ≤ 5) → St s → St s'

structure Tail (it : Iter) (lg : Logger) (St : LogSt → Prop) (s : LogSt) : Prop where
  clean : Clean it s.st
  vals : ∀ p ∈ s.st.pm.ordered, p ∈ s.st.pm.pluginMap.vals
  told : lg = quiet → Told s
  st : St s

omit [GoRuntime] in
theorem freeOrder_congr (it : Iter) {pm pm' : Manager} (h : pm'.pluginMap = pm.pluginMap) (ho : pm'.ordered = pm.ordered) : freeOrder it pm' = freeOrder it pm := by
  unfold freeOrder; rw [h, ho]

omit [GoRuntime] in
theorem announced_append (nm : Nat → Str) (k : Nat) (l r : List Act) : announced nm k (l ++ r) = announced nm k l ++ announced nm (k + l.length) r := by
  unfold announced
  rw [List.zipIdx_append, List.filterMap_append]

omit [GoRuntime] in
theorem announced_none {nm : Nat → Str} {l : List Act} (h : ∀ a ∈ l, announces nm a = none) (k : Nat) : announced nm k l = [] := by
  unfold announced
  rw [List.filterMap_eq_nil_iff]
  rintro ⟨a, i⟩ hx
  have ha : a ∈ l := List.fst_mem_of_mem_zipIdx hx
  simp [h a ha]

theorem Tail.step {it : Iter} {lg : Logger} {St : LogSt → Prop} (hcl : HookClosed St) {s s' : LogSt} (h : Tail it lg St s)
    (hm : s'.st.pm.pluginMap = s.st.pm.pluginMap) (ho : s'.st.pm.ordered = s.st.pm.ordered) {ll : List (Nat × Line)} {la : List Act}
    (hl : s'.lines = s.lines ++ ll) (hll : ∀ x ∈ ll, x.2.isHook = true)
    (ha : s'.st.acts = s.st.acts ++ la) (hla : ∀ a ∈ la, 2 ≤ a.stage ∧ a.stage ≤ 5)
    (ht : lg = quiet → ∀ nm : Nat → Str, (∀ p ∈ s.st.pm.pluginMap.vals, nm p.inst = p.name) → ll = announced nm s.st.acts.length la) : Tail it lg St s' := by
  refine ⟨⟨?_, ?_⟩, ?_, ?_, hcl s s' ll la hl hll ha hla h.st⟩
  · obtain ⟨rel, h1, h2, h3⟩ := h.clean.1
    refine ⟨rel, by rw [freeOrder_congr it hm ho]; exact h1, ?_, h3.1, h3.2.congr hm ho⟩
    rw [ha]
    unfold acquired at h2 ⊢
    rw [List.filterMap_append]
    have : la.filterMap acquires = [] := by
      refine acquired_eq_nil (fun a ha => ?_)
      have := (hla a ha).1
      omega
    rw [this, List.append_nil]
    exact h2
  · intro a ha'
    rw [ha] at ha'
    rcases List.mem_append.mp ha' with h' | h'
    · exact h.clean.2 a h'
    · exact (hla a h').2
  · rw [hm, ho]; exact h.vals
  · intro hq nm hnm
    rw [hm] at hnm
    rw [hl, ha, List.filter_append, announced_append, h.told hq nm hnm, Nat.zero_add]
    congr 1
    rw [List.filter_eq_self.mpr (fun x hx => hll x hx)]
    exact ht hq nm hnm

/-- Code that does not use the logger and calls no hook that is announced. -/
theorem Tail.lift {it : Iter} {lg : Logger} {St : LogSt → Prop} (hcl : HookClosed St) {s : LogSt} (h : Tail it lg St s) {α : Type} {P : Act → Prop} {x : M α} (hx : Adds P x)
    (hP : ∀ a, P a → 2 ≤ a.stage ∧ a.stage ≤ 5 ∧ ∀ nm, announces nm a = none) : Tail it lg St (LM.lift x s).2 := by
  obtain ⟨h1, h2, la, h3, h4⟩ := hx s.st
  refine h.step hcl (ll := []) h1 h2 (by simp [LM.lift]) (by simp) h3 (fun a ha => ⟨(hP a (h4 a ha)).1, (hP a (h4 a ha)).2.1⟩) (fun _ nm _ => ?_)
  exact (announced_none (fun a ha => (hP a (h4 a ha)).2.2 nm) _).symm

/-- An invariant of a computation, whatever its exit. -/
def Pres {α : Type} (I : LogSt → Prop) (x : LM α) : Prop := ∀ s, I s → I (x s).2

section
variable {α β : Type} {I : LogSt → Prop}

omit [GoRuntime] in
theorem pres_bind_at {x : LM α} {f : α → LM β} {s : LogSt} (hx : I (x s).2) (hf : ∀ a, Pres I (f a)) : I (LM.bind x f s).2 := by
  unfold LM.bind
  rcases h : x s with ⟨e, t⟩
  rw [h] at hx
  cases e with
  | ok a => exact hf a t hx
  | err e => exact hx
  | panic p => exact hx

omit [GoRuntime] in
theorem pres_forEach {l : List α} {f : α → LM Unit} (hf : ∀ a ∈ l, Pres I (f a)) : Pres I (LM.forEach l f) := by
  induction l with
  | nil => intro s hs; exact hs
  | cons a r ih => intro s hs; exact pres_bind_at (hf a (by simp) s hs) (fun _ => ih (fun a ha => hf a (by simp [ha])))

end

theorem quiet_false : ∀ {lg : Logger} {n : Nat}, lg n = true → lg ≠ quiet := by
  rintro lg n h rfl
  cases h

/-- An announcement, and the hook. -/
theorem Tail.hook {it : Iter} {lg : Logger} {St : LogSt → Prop} (hcl : HookClosed St) {s : LogSt} (h : Tail it lg St s) {p : Plugin} (hp : p ∈ s.st.pm.pluginMap.vals)
    {l : Line} (hl : l.isHook = true) {x : M Unit} {P : Act → Prop} (hx : Adds P x)
    (hfirst : ∃ a, (x s.st).2.acts = s.st.acts ++ [a] ∧ 2 ≤ a.stage ∧ a.stage ≤ 5 ∧ ∀ nm : Nat → Str, nm p.inst = p.name → announces nm a = some l) :
    Tail it lg St ((debugLine lg p.name l >>= fun _ => LM.lift x) s).2 := by
  obtain ⟨a, h1, h2, h3, h4⟩ := hfirst
  obtain ⟨g1, g2, _⟩ := hx s.st
  cases hlg : lg s.lines.length with
  | true =>
    have he : (debugLine lg p.name l >>= fun _ => LM.lift x) s = (.err (.hookPanic p.name), ⟨s.st, s.lines ++ [(s.st.acts.length, l)]⟩) := by
      change LM.bind (debugLine lg p.name l) (fun _ => LM.lift x) s = _
      unfold LM.bind debugLine LM.write
      simp [hlg]
    rw [he]
    refine h.step hcl (ll := [(s.st.acts.length, l)]) (la := []) rfl rfl rfl (by simpa using hl) (by simp) (by simp) (fun hq => absurd hq (quiet_false hlg))
  | false =>
    have he : (debugLine lg p.name l >>= fun _ => LM.lift x) s = ((x s.st).1, ⟨(x s.st).2, s.lines ++ [(s.st.acts.length, l)]⟩) := by
      change LM.bind (debugLine lg p.name l) (fun _ => LM.lift x) s = _
      unfold LM.bind debugLine LM.write LM.lift
      simp [hlg]
    rw [he]
    refine h.step hcl (ll := [(s.st.acts.length, l)]) (la := [a]) g1 g2 rfl (by simpa using hl) h1 (by simpa using ⟨h2, h3⟩) (fun _ nm hnm => ?_)
    simp [announced, h4 nm (hnm p hp)]

theorem adds_onLoadHook (p : Plugin) (data : Nat) : Adds (fun a => a = .callOnLoad p.inst data) (M.bind (M.emit (.callOnLoad p.inst data)) (fun _ => match p.code.onLoad data with
        | .ok => M.pure ()
        | .err => M.throw (.hookErr p.name)
        | .panics => M.throw (.hookPanic p.name))) := by
  refine Adds.bind (Adds.emit rfl) (fun _ => ?_)
  cases p.code.onLoad data
  · exact Adds.pure _
  · exact Adds.throw _
  · exact Adds.throw _

theorem tail_onLoad {it : Iter} {lg : Logger} {St : LogSt → Prop} (hcl : HookClosed St) (data : Nat) {s : LogSt} (h : Tail it lg St s) : Tail it lg St (invokeEveryOnLoadL lg data s).2 := by
  have key : Pres (fun t => Tail it lg St t ∧ t.st.pm.pluginMap = s.st.pm.pluginMap) (LM.forEach s.st.pm.ordered (fun p =>
    if p.unchanged then LM.lift (M.pure ())
    else do
      debugLine lg p.name (.onLoad p.name)
      LM.lift (do
        M.emit (.callOnLoad p.inst data)
        match p.code.onLoad data with
        | .ok => M.pure ()
        | .err => M.throw (.hookErr p.name)
        | .panics => M.throw (.hookPanic p.name)))) := by
    refine pres_forEach (fun p hp t ht => ?_)
    have hpv : p ∈ t.st.pm.pluginMap.vals := by rw [ht.2]; exact h.vals p hp
    split
    · exact ht
    · refine ⟨Tail.hook hcl ht.1 hpv rfl (adds_onLoadHook p data) ⟨.callOnLoad p.inst data, ?_, by simp [Act.stage], by simp [Act.stage], fun nm hnm => by simp [announces, hnm]⟩, ?_⟩
      · change (M.bind (M.emit _) _ t.st).2.acts = _
        unfold M.bind M.emit
        cases p.code.onLoad data <;> rfl
      · rw [← ht.2]
        change (LM.bind _ _ t).2.st.pm.pluginMap = _
        unfold LM.bind debugLine LM.write
        cases lg t.lines.length with
        | true => rfl
        | false => exact (adds_onLoadHook p data t.st).1
  exact (key s ⟨h, rfl⟩).1

theorem adds_onInitHook (p : Plugin) : Adds (fun a => a.stage = 5) (M.bind M.get (fun s' => M.bind (M.emit (.callOnInit p.inst s'.pm.mid s'.pm.vault)) (fun _ =>
      M.bind (M.modPm (fun pm => { pm with vault := (p.code.onInit s'.pm.vault).2 })) (fun _ =>
        match (p.code.onInit s'.pm.vault).1 with
        | .ok => M.pure ()
        | .err => M.throw (.hookErr p.name)
        | .panics => M.throw (.hookPanic p.name))))) := by
  refine Adds.bind Adds.get (fun s' => Adds.bind (Adds.emit rfl) (fun _ => Adds.bind (Adds.modPm (fun _ => ⟨rfl, rfl⟩)) (fun _ => ?_)))
  cases (p.code.onInit s'.pm.vault).1
  · exact Adds.pure _
  · exact Adds.throw _
  · exact Adds.throw _

theorem tail_onInit {it : Iter} {lg : Logger} {St : LogSt → Prop} (hcl : HookClosed St) {s : LogSt} (h : Tail it lg St s) : Tail it lg St (invokeEveryOnInitL lg s).2 := by
  have key : Pres (fun t => Tail it lg St t ∧ t.st.pm.pluginMap = s.st.pm.pluginMap) (LM.forEach s.st.pm.ordered (fun p =>
    if p.unchanged then LM.lift (M.pure ())
    else do
      debugLine lg p.name (.onInit p.name)
      LM.lift (do
        let s' ← M.get
        M.emit (.callOnInit p.inst s'.pm.mid s'.pm.vault)
        M.modPm (fun pm => { pm with vault := (p.code.onInit s'.pm.vault).2 })
        match (p.code.onInit s'.pm.vault).1 with
        | .ok => M.pure ()
        | .err => M.throw (.hookErr p.name)
        | .panics => M.throw (.hookPanic p.name)))) := by
    refine pres_forEach (fun p hp t ht => ?_)
    have hpv : p ∈ t.st.pm.pluginMap.vals := by rw [ht.2]; exact h.vals p hp
    split
    · exact ht
    · refine ⟨ht.1.hook hcl hpv rfl (adds_onInitHook p) ⟨.callOnInit p.inst t.st.pm.mid t.st.pm.vault, ?_, by simp [Act.stage], by simp [Act.stage], fun nm hnm => by simp [announces, hnm]⟩, ?_⟩
      · change (M.bind M.get (fun s' => M.bind (M.emit _) (fun _ => M.bind (M.modPm _) _)) t.st).2.acts = _
        unfold M.bind M.get M.emit M.modPm
        simp only
        cases (p.code.onInit t.st.pm.vault).1 <;> rfl
      · rw [← ht.2]
        change (LM.bind _ _ t).2.st.pm.pluginMap = _
        unfold LM.bind debugLine LM.write
        cases lg t.lines.length with
        | true => rfl
        | false => exact (adds_onInitHook p t.st).1
  exact (key s ⟨h, rfl⟩).1

/-- After the order has been established. -/
theorem tail_rest {it : Iter} {lg : Logger} {St : LogSt → Prop} (hcl : HookClosed St) (data : Nat) {s : LogSt} (h : Tail it lg St s) :
    Tail it lg St ((invokeEveryOnLoadL lg data >>= fun _ => LM.lift (setupVault it) >>= fun _ => invokeEveryOnInitL lg) s).2 := by
  refine pres_bind_at (tail_onLoad hcl data h) (fun _ t ht => ?_)
  refine pres_bind_at (ht.lift hcl (adds_vault it) ?_) (fun _ t ht => tail_onInit hcl ht)
  intro a ha
  cases a <;> simp [Act.isVault] at ha <;> simp [Act.stage, announces]

end Hotswap
