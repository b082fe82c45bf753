import Verif.Spec.Packages
import Verif.Proofs.Plan
import Verif.Proofs.Emits

/-!
# Which files a call opens for which instances, however the call ends

The pieces of a call keep every property of the state that only openings and calls of `Reloadable` can change. The loop that opens the files is treated separately.
-/

namespace Hotswap

variable [GoRuntime]

open M

/-- `x` keeps `J`, however it ends. -/
def Stays (J : LoadSt → Prop) (x : M α) : Prop := ∀ s, J s → J (x s).2

/-- `x` makes `K` true if `J` is. -/
def Makes (J K : LoadSt → Prop) (x : M α) : Prop := ∀ s, J s → K (x s).2

/-- Neither the opening of a file nor a call of `Reloadable`. -/
def Act.quiet : Act → Bool
  | .openPlugin _ | .callReloadable _ => false
  | _ => true

/-- Only openings and calls of `Reloadable` matter for `J`. -/
structure Stable (J : LoadSt → Prop) : Prop where
  pm : ∀ s pm, J s → J { s with pm := pm }
  next : ∀ s, J s → J { s with next := s.next + 1 }
  act : ∀ s a, a.quiet = true → J s → J { s with acts := s.acts ++ [a] }

variable {J K : LoadSt → Prop}

omit [GoRuntime] in
theorem stays_pure (a : α) : Stays J (M.pure a) := fun _ h => h
omit [GoRuntime] in
theorem stays_throw (e : Err) : Stays J (M.throw e : M α) := fun _ h => h
omit [GoRuntime] in
theorem stays_panic (p : Panic) : Stays J (M.panic p : M α) := fun _ h => h
omit [GoRuntime] in
theorem stays_get : Stays J M.get := fun _ h => h
omit [GoRuntime] in
theorem Stable.modPm (hj : Stable J) (f : Manager → Manager) : Stays J (M.modPm f) := fun s h => hj.pm s _ h
omit [GoRuntime] in
theorem Stable.alloc (hj : Stable J) : Stays J M.alloc := fun s h => hj.next s h
omit [GoRuntime] in
theorem Stable.emit (hj : Stable J) {a : Act} (ha : a.quiet = true) : Stays J (M.emit a) := fun s h => hj.act s a ha h
omit [GoRuntime] in
theorem makes_bind {x : M α} {f : α → M β} (hx : Stays J x) (hf : ∀ a, Makes J K (f a)) (hjk : ∀ s, J s → K s) : Makes J K (M.bind x f) := by
  intro s h
  unfold M.bind
  have := hx s h
  rcases hxs : x s with ⟨e, s'⟩
  rw [hxs] at this
  cases e with
  | ok a => exact hf a s' this
  | err e => exact hjk _ this
  | panic p => exact hjk _ this
omit [GoRuntime] in
theorem makes_bind' {x : M α} {f : α → M β} (hx : Makes J K x) (hf : ∀ a, Stays K (f a)) : Makes J K (M.bind x f) := by
  intro s h
  unfold M.bind
  have := hx s h
  rcases hxs : x s with ⟨e, s'⟩
  rw [hxs] at this
  cases e with
  | ok a => exact hf a s' this
  | err e => exact this
  | panic p => exact this
omit [GoRuntime] in
theorem stays_mbind {x : M α} {f : α → M β} (hx : Stays J x) (hf : ∀ a, Stays J (f a)) : Stays J (M.bind x f) := makes_bind hx hf (fun _ h => h)
omit [GoRuntime] in
theorem stays_bind {x : M α} {f : α → M β} (hx : Stays J x) (hf : ∀ a, Stays J (f a)) : Stays J (x >>= f) := stays_mbind hx hf
omit [GoRuntime] in
theorem stays_forEach {l : List α} {f : α → M Unit} (hf : ∀ a ∈ l, Stays J (f a)) : Stays J (M.forEach l f) := by
  induction l with
  | nil => exact stays_pure ()
  | cons a r ih => exact stays_mbind (hf a (by simp)) (fun _ => ih (fun b hb => hf b (by simp [hb])))
omit [GoRuntime] in
theorem stays_ite {c : Prop} [Decidable c] {x y : M α} (hx : c → Stays J x) (hy : ¬c → Stays J y) : Stays J (if c then x else y) := by
  split
  · exact hx ‹_›
  · exact hy ‹_›
omit [GoRuntime] in
theorem makes_wrapLoading {n : Str} {x : M Unit} (hx : Makes J K x) : Makes J K (wrapLoading n x) := by
  intro s h
  have := hx s h
  unfold wrapLoading
  rcases hxs : x s with ⟨e, s'⟩
  rw [hxs] at this
  cases e <;> exact this
omit [GoRuntime] in
theorem makes_tagPanic {c : Option Str} {x : M Unit} (hx : Makes J K x) : Makes J K (tagPanic c x) := by
  intro s h
  have := hx s h
  unfold tagPanic
  rcases hxs : x s with ⟨e, s'⟩
  rw [hxs] at this
  cases e <;> exact this
omit [GoRuntime] in
theorem Stable.acts (hj : Stable J) (l : List Act) (hl : ∀ a ∈ l, a.quiet = true) : ∀ s, J s → J { s with acts := s.acts ++ l } := by
  induction l with
  | nil => intro s h; simpa using h
  | cons a r ih =>
    intro s h
    have := ih (fun b hb => hl b (by simp [hb])) _ (hj.act s a (hl a (by simp)) h)
    simpa using this
omit [GoRuntime] in
theorem stays_free (hj : Stable J) {it : Iter} : Stays J (invokeEveryOnFree it) := by
  intro s h
  refine hj.acts _ ?_ s h
  intro a ha
  obtain ⟨p, _, rfl⟩ := List.mem_map.mp ha; rfl
omit [GoRuntime] in
theorem makes_withCleanup (hk : Stable K) {it : Iter} {x : M Unit} (hx : Makes J K x) : Makes J K (withCleanup it x) := by
  intro s h
  have := hx s h
  unfold withCleanup
  rcases hxs : x s with ⟨e, s'⟩
  rw [hxs] at this
  cases e with
  | ok a => exact this
  | err e => exact stays_free hk _ this
  | panic p => exact stays_free hk _ this
omit [GoRuntime] in
theorem stays_invokeRet {p : Str} {r : Ret α} : Stays J (invokeRet p r) := by
  unfold invokeRet
  cases r
  · exact stays_pure _
  · exact stays_throw _

theorem stays_keepPlugins (hj : Stable J) {old : Option Manager} {note : Note} {ks : List Str} : Stays J (keepPlugins old note ks) := by
  refine stays_forEach (fun k _ => ?_)
  cases old with
  | none => exact stays_panic _
  | some om =>
    dsimp only
    cases om.pluginMap.get? k with
    | none => exact stays_panic _
    | some p => exact stays_bind (hj.emit rfl) (fun _ => hj.modPm _)

omit [GoRuntime] in
theorem stays_outputStats1 : Stays J outputStats1 :=
  stays_bind stays_get (fun _ => stays_ite (fun _ => stays_pure _) (fun _ => stays_panic _))

theorem stays_bindField (hj : Stable J) {k : Str} {p : Plugin} {f : Field} : Stays J (bindField k p f) := by
  unfold bindField
  refine stays_ite (fun _ => stays_pure _) (fun _ => stays_ite (fun _ => stays_throw _) (fun _ => stays_bind stays_get (fun s => ?_)))
  cases s.pm.pluginMap.get? (name2key f.name) with
  | none => exact stays_throw _
  | some dep =>
    refine stays_ite (fun _ => stays_throw _) (fun _ => stays_ite (fun _ => hj.modPm _) (fun _ => ?_))
    cases dep.exported with
    | none => exact hj.modPm _
    | some v => exact stays_ite (fun _ => stays_throw _) (fun _ => stays_ite (fun _ => stays_panic _) (fun _ => hj.modPm _))

theorem stays_importPlugin (hj : Stable J) {k : Str} : Stays J (importPlugin k) := by
  refine stays_bind stays_get (fun s => ?_)
  cases s.pm.pluginMap.get? k with
  | none => exact stays_panic _
  | some p =>
    refine stays_ite (fun _ => stays_pure _) (fun _ => stays_bind (hj.emit rfl) (fun _ => stays_bind stays_invokeRet (fun imp => ?_)))
    cases imp.val with
    | none => exact stays_pure _
    | some v => exact stays_ite (fun _ => stays_pure _) (fun _ => stays_ite (fun _ => stays_throw _) (fun _ => stays_forEach (fun _ _ => stays_bindField hj)))

theorem stays_initDeps (hj : Stable J) {it : Iter} : Stays J (initDeps it) := by
  refine stays_bind stays_get (fun s => stays_bind (stays_forEach (fun _ _ => stays_importPlugin hj)) (fun _ => stays_bind ?_ (fun _ => stays_bind ?_ (fun _ => ?_))))
  · refine stays_bind stays_get (fun s => stays_forEach (fun e _ => stays_ite (fun _ => stays_pure _) (fun _ => ?_)))
    cases checkCyclic s.pm.pluginMap (cyclicFuel s.pm.pluginMap) (some e.2) [] with
    | clean => exact stays_pure _
    | cycle names => exact stays_throw _
    | nilDeref => exact stays_panic _
    | fuel => exact stays_panic _
  · refine stays_bind stays_get (fun s => stays_forEach (fun e _ => stays_ite (fun _ => stays_forEach (fun d _ => ?_)) (fun _ => stays_pure _)))
    cases s.pm.pluginMap.get? (name2key d) with
    | none => exact stays_panic _
    | some dep => exact stays_ite (fun _ => stays_pure _) (fun _ => stays_throw _)
  · refine stays_bind stays_get (fun s => ?_)
    cases orderPlugins it s.pm.pluginMap with
    | none => exact stays_panic _
    | some a => exact hj.modPm _

theorem stays_onLoad (hj : Stable J) {data : Nat} : Stays J (invokeEveryOnLoad data) := by
  refine stays_bind stays_get (fun s => stays_forEach (fun p _ => stays_ite (fun _ => stays_pure _) (fun _ => stays_bind (hj.emit rfl) (fun _ => ?_))))
  cases p.code.onLoad data with
  | ok => exact stays_pure _
  | err => exact stays_throw _
  | panics => exact stays_throw _

theorem stays_onInit (hj : Stable J) : Stays J invokeEveryOnInit := by
  refine stays_bind stays_get (fun s => stays_forEach (fun p _ => stays_ite (fun _ => stays_pure _) (fun _ => stays_bind stays_get (fun s' => stays_bind (hj.emit rfl) (fun _ =>
    stays_bind (hj.modPm _) (fun _ => ?_))))))
  cases (p.code.onInit s'.pm.vault).1 with
  | ok => exact stays_pure _
  | err => exact stays_throw _
  | panics => exact stays_throw _

theorem stays_liveFuncs (hj : Stable J) {it : Iter} {before l : List Plugin} : Stays J (setupLiveFuncs it before l) := by
  induction l generalizing before with
  | nil => exact stays_pure _
  | cons p r ih =>
    unfold setupLiveFuncs
    refine stays_bind (hj.emit rfl) (fun _ => ?_)
    cases p.code.liveFuncs with
    | panics => exact stays_panic _
    | ret o =>
      cases o with
      | none => exact stays_throw _
      | some m =>
        refine stays_bind (stays_forEach (fun e _ => stays_bind stays_get (fun s => ?_))) (fun _ => ih)
        cases s.pm.vault.liveFuncs.get? e.1 with
        | none => exact hj.modPm _
        | some _ => exact stays_throw _

theorem stays_liveTypes (hj : Stable J) {it : Iter} {before l : List Plugin} : Stays J (setupLiveTypes it before l) := by
  induction l generalizing before with
  | nil => exact stays_pure _
  | cons p r ih =>
    unfold setupLiveTypes
    refine stays_bind (hj.emit rfl) (fun _ => ?_)
    cases p.code.liveTypes with
    | panics => exact stays_panic _
    | ret o =>
      cases o with
      | none => exact stays_throw _
      | some m =>
        refine stays_bind (stays_forEach (fun e _ => stays_bind stays_get (fun s => ?_))) (fun _ => ih)
        cases s.pm.vault.liveTypes.get? e.1 with
        | none => exact hj.modPm _
        | some _ => exact stays_throw _

theorem stays_finishLoad (hj : Stable J) {it : Iter} {data : Nat} : Stays J (finishLoad it data) :=
  stays_bind (stays_initDeps hj) (fun _ => stays_bind (stays_onLoad hj) (fun _ => stays_bind
    (stays_bind stays_get (fun _ => stays_bind (stays_liveFuncs hj) (fun _ => stays_liveTypes hj))) (fun _ => stays_onInit hj)))

theorem stays_callbacks (hj : Stable J) {it : Iter} {old : Option Manager} {cbs : List (Nat × Outcome)} : Stays J (invokeReloadCallbacks it old cbs) := by
  induction cbs with
  | nil => exact stays_pure _
  | cons c r ih =>
    obtain ⟨n, o⟩ := c
    unfold invokeReloadCallbacks
    refine stays_bind stays_get (fun s => stays_bind (hj.emit rfl) (fun _ => ?_))
    cases o with
    | ok => exact ih
    | err => exact stays_bind (stays_free hj) (fun _ => stays_throw _)
    | panics => exact stays_bind (stays_free hj) (fun _ => stays_throw _)

theorem stays_create (hj : Stable J) {cfg : Config} {env : Env} : Stays J (createManager cfg env) := by
  unfold createManager
  refine stays_bind hj.alloc (fun mid => stays_ite (fun _ => ?_) (fun _ => hj.modPm _))
  cases env.ext with
  | panics => exact stays_panic _
  | ret ext => exact hj.modPm _

theorem stays_publishNew (hj : Stable J) {old : Option Manager} : Stays J (publishNew old) := by
  unfold publishNew
  cases old with
  | none => exact stays_bind (stays_pure _) (fun _ => stays_bind stays_get (fun _ => hj.emit rfl))
  | some om => exact stays_bind (hj.emit rfl) (fun _ => stays_bind stays_get (fun _ => hj.emit rfl))

/-! ### the files and the instances -/

/-- The file opened last. -/
def lastOpened : Option Str → List Act → Option Str
  | o, [] => o
  | _, .openPlugin f :: r => lastOpened (some f) r
  | o, _ :: r => lastOpened o r

omit [GoRuntime] in
theorem openedFor_append (o : Option Str) (a b : List Act) : openedFor o (a ++ b) = openedFor o a ++ openedFor (lastOpened o a) b := by
  induction a generalizing o with
  | nil => cases o <;> rfl
  | cons x r ih => cases x <;> cases o <;> simp [openedFor, lastOpened, ih]

omit [GoRuntime] in
theorem openedFor_quiet (o : Option Str) {a : Act} (ha : a.quiet = true) : openedFor o [a] = [] := by
  cases a <;> cases o <;> first | rfl | cases ha

/-- What is known about the openings and the instances, when only files of `S` have been opened. -/
structure OpenLog (fs : FS) (S : Str → Prop) (s : LoadSt) : Prop where
  /-- for a file there is at most one instance -/
  files : ((openedFor none s.acts).map (·.2)).Nodup
  only : ∀ f, Act.openPlugin f ∈ s.acts → S f
  opened : ∀ e ∈ openedFor none s.acts, Act.openPlugin e.2 ∈ s.acts ∧ ∃ syms code, fs.openPlugin e.2 = .image syms code
  all : ∀ i, Act.callReloadable i ∈ s.acts → i ∈ (openedFor none s.acts).map (·.1)
  /-- before the first call of a function of an instance its file is opened -/
  before : ∀ d i r, s.acts = d ++ .callReloadable i :: r → ∃ f syms code, lastOpened none d = some f ∧ fs.openPlugin f = .image syms code

omit [GoRuntime] in
theorem lastOpened_append (o : Option Str) (a b : List Act) : lastOpened o (a ++ b) = lastOpened (lastOpened o a) b := by
  induction a generalizing o with
  | nil => rfl
  | cons x r ih => cases x <;> exact ih _

omit [GoRuntime] in
theorem snoc_cases {α : Type} {l d r : List α} {a b : α} (h : l ++ [a] = d ++ b :: r) : (∃ r', r = r' ++ [a] ∧ l = d ++ b :: r') ∨ (r = [] ∧ l = d ∧ a = b) := by
  rcases List.eq_nil_or_concat r with rfl | ⟨r', x, rfl⟩
  · have := List.append_inj' h rfl
    exact .inr ⟨rfl, this.1, by simpa using this.2⟩
  · left
    rw [List.concat_eq_append, ← List.cons_append, ← List.append_assoc] at h
    have := List.append_inj' h rfl
    have hx : a = x := by simpa using this.2
    subst hx
    exact ⟨r', List.concat_eq_append, this.1⟩

omit [GoRuntime] in
theorem OpenLog.before_snoc {fs : FS} {S : Str → Prop} {s : LoadSt} (h : OpenLog fs S s) {a : Act} (ha : ∀ i, a ≠ .callReloadable i) {d r : List Act} {i : Nat}
    (he : s.acts ++ [a] = d ++ .callReloadable i :: r) : ∃ f syms code, lastOpened none d = some f ∧ fs.openPlugin f = .image syms code := by
  rcases snoc_cases he with ⟨r', _, he'⟩ | ⟨_, _, hb⟩
  · exact h.before d i r' he'
  · exact absurd hb (ha i)

omit [GoRuntime] in
theorem openLog_stable {fs : FS} {S : Str → Prop} : Stable (OpenLog fs S) where
  pm := fun _ _ h => ⟨h.files, h.only, h.opened, h.all, h.before⟩
  next := fun _ h => ⟨h.files, h.only, h.opened, h.all, h.before⟩
  act := fun s a ha h => by
    have he : openedFor none (s.acts ++ [a]) = openedFor none s.acts := by rw [openedFor_append, openedFor_quiet _ ha, List.append_nil]
    refine ⟨?_, ?_, ?_, ?_, ?_⟩
    · show ((openedFor none (s.acts ++ [a])).map (·.2)).Nodup
      rw [he]; exact h.files
    · intro f hf
      rcases List.mem_append.mp hf with hf | hf
      · exact h.only f hf
      · rw [List.mem_singleton] at hf; subst hf; cases ha
    · intro e hm
      change e ∈ openedFor none (s.acts ++ [a]) at hm
      rw [he] at hm
      exact ⟨List.mem_append_left _ (h.opened e hm).1, (h.opened e hm).2⟩
    · intro i hi
      show i ∈ (openedFor none (s.acts ++ [a])).map (·.1)
      rw [he]
      rcases List.mem_append.mp hi with hi | hi
      · exact h.all i hi
      · rw [List.mem_singleton] at hi; subst hi; cases ha
    · intro d i r he'
      change s.acts ++ [a] = _ at he'
      refine h.before_snoc (fun b hb => ?_) he'
      cases hb; cases ha

omit [GoRuntime] in
theorem OpenLog.mono {fs : FS} {S T : Str → Prop} {s : LoadSt} (h : OpenLog fs S s) (hst : ∀ f, S f → T f) : OpenLog fs T s :=
  ⟨h.files, fun f hf => hst f (h.only f hf), h.opened, h.all, h.before⟩

omit [GoRuntime] in
/-- One more file is opened. -/
theorem OpenLog.opening {fs : FS} {S T : Str → Prop} {s : LoadSt} (h : OpenLog fs S s) (hst : ∀ f, S f → T f) {f : Str} (hf : T f) :
    OpenLog fs T { s with acts := s.acts ++ [.openPlugin f] } := by
  have he : openedFor none (s.acts ++ [.openPlugin f]) = openedFor none s.acts := by
    rw [openedFor_append]; simp [openedFor]
  refine ⟨?_, ?_, ?_, ?_, ?_⟩
  · show ((openedFor none (s.acts ++ [.openPlugin f])).map (·.2)).Nodup
    rw [he]; exact h.files
  · intro g hg
    rcases List.mem_append.mp hg with hg | hg
    · exact hst g (h.only g hg)
    · rw [List.mem_singleton] at hg; cases hg; exact hf
  · intro e hm
    change e ∈ openedFor none (s.acts ++ [.openPlugin f]) at hm
    rw [he] at hm
    exact ⟨List.mem_append_left _ (h.opened e hm).1, (h.opened e hm).2⟩
  · intro i hi
    show i ∈ (openedFor none (s.acts ++ [.openPlugin f])).map (·.1)
    rw [he]
    rcases List.mem_append.mp hi with hi | hi
    · exact h.all i hi
    · rw [List.mem_singleton] at hi; cases hi
  · intro d i r he'
    exact h.before_snoc (fun b hb => by cases hb) he'

omit [GoRuntime] in
/-- One more file is opened, and an instance is made for it. -/
theorem OpenLog.making {fs : FS} {S T : Str → Prop} {s : LoadSt} (h : OpenLog fs S s) (hst : ∀ f, S f → T f) {f : Str} (hf : T f) (hnew : ¬S f) {syms : Str → Option GoType} {code : Code}
    (ho : fs.openPlugin f = .image syms code) (i : Nat) : OpenLog fs T { s with acts := s.acts ++ [.openPlugin f] ++ [.callReloadable i] } := by
  have he : openedFor none (s.acts ++ [.openPlugin f] ++ [.callReloadable i]) = openedFor none s.acts ++ [(i, f)] := by
    rw [List.append_assoc, openedFor_append]; simp [openedFor]
  refine ⟨?_, ?_, ?_, ?_, ?_⟩
  · show ((openedFor none (s.acts ++ [.openPlugin f] ++ [.callReloadable i])).map (·.2)).Nodup
    rw [he, List.map_append, List.nodup_append]
    refine ⟨h.files, by simp, ?_⟩
    intro a ha b hb hab
    simp at hb; subst hb hab
    obtain ⟨e, hm, rfl⟩ := List.mem_map.mp ha
    exact hnew (h.only _ (h.opened e hm).1)
  · intro g hg
    rw [List.append_assoc] at hg
    rcases List.mem_append.mp hg with hg | hg
    · exact hst g (h.only g hg)
    · simp at hg; subst hg; exact hf
  · intro e hm
    change e ∈ openedFor none (s.acts ++ [.openPlugin f] ++ [.callReloadable i]) at hm
    rw [he] at hm
    show Act.openPlugin e.2 ∈ s.acts ++ [.openPlugin f] ++ [.callReloadable i] ∧ _
    rw [List.append_assoc]
    rcases List.mem_append.mp hm with hm | hm
    · exact ⟨List.mem_append_left _ (h.opened e hm).1, (h.opened e hm).2⟩
    · rw [List.mem_singleton] at hm; subst hm; exact ⟨by simp, _, _, ho⟩
  · intro j hj
    show j ∈ (openedFor none (s.acts ++ [.openPlugin f] ++ [.callReloadable i])).map (·.1)
    rw [he, List.map_append]
    rw [List.append_assoc] at hj
    rcases List.mem_append.mp hj with hj | hj
    · exact List.mem_append_left _ (h.all j hj)
    · simp at hj; subst hj; simp
  · intro d j r he'
    change s.acts ++ [.openPlugin f] ++ [.callReloadable i] = _ at he'
    rcases snoc_cases he' with ⟨r', hr, he''⟩ | ⟨hr, hd, hj⟩
    · exact h.before_snoc (fun b hb => by cases hb) he''
    · refine ⟨f, syms, code, ?_, ho⟩
      rw [← hd, lastOpened_append]; rfl

omit [GoRuntime] in
theorem makes_forEach {l : List α} {f : α → M Unit} (L : List α → LoadSt → Prop) (hk : ∀ done s, L done s → K s)
    (hstep : ∀ done a rest, l = done ++ a :: rest → Makes (L done) (L (done ++ [a])) (f a)) : Makes (L []) K (M.forEach l f) := by
  have key : ∀ (rest done : List α), l = done ++ rest → Makes (L done) K (M.forEach rest f) := by
    intro rest
    induction rest with
    | nil => intro done _ s h; exact hk done s h
    | cons a r ih =>
      intro done hl s h
      have := hstep done a r hl s h
      have ih' := ih (done ++ [a]) (by rw [hl]; simp)
      show K (M.bind (f a) (fun _ => M.forEach r f) s).2
      unfold M.bind
      rcases hxs : f a s with ⟨e, s'⟩
      rw [hxs] at this
      cases e with
      | ok _ => exact ih' s' this
      | err e => exact hk _ _ this
      | panic p => exact hk _ _ this
  exact key l [] rfl

omit [GoRuntime] in
theorem wp_makes {x : M α} {s : LoadSt} (h : wp x (fun _ s' => K s') (fun _ s' => K s') s) : K (x s).2 := by
  unfold wp at h
  rcases hxs : x s with ⟨e, s'⟩
  rw [hxs] at h
  cases e <;> exact h

/-- One pass of the loop. -/
theorem makes_loadPlugin {fs : FS} {S T : Str → Prop} {info : FileInfo} (hst : ∀ f, S f → T f) (hf : T info.file) (hnew : ¬S info.file) :
    Makes (OpenLog fs S) (OpenLog fs T) (loadPlugin fs info) := by
  intro s h
  apply wp_makes
  unfold loadPlugin
  simp only [wp_bind]
  cases hc : fs.copyOk info.file with
  | false => simp only [if_true, wp_throw]; exact h.mono hst
  | true =>
    simp only [Bool.true_eq_false, if_false, wp_pure, wp_alloc, wp_emit]
    have h0 : OpenLog fs S { s with next := s.next + 1 } := openLog_stable.next s h
    have h1 := h0.opening hst hf
    cases ho : fs.openPlugin info.file with
    | err => simp only [wp_throw]; exact h1
    | panics => simp only [wp_panic]; exact h1
    | image syms code =>
      simp only
      cases hl : lookupAll syms pluginFuncItems with
      | error sym => simp only [wp_throw]; exact h1
      | ok l =>
        cases l with
        | cons m ms => simp only [wp_throw]; exact h1
        | nil =>
          simp only [wp_bind, wp_emit]
          have h2 := h0.making hst hf hnew ho s.next
          cases hr : code.reloadable with
          | panics => simp only [invokeRet, wp_throw]; exact h2
          | ret rel =>
            simp only [invokeRet, wp_mpure, wp_bind, wp_emit]
            have h3 := openLog_stable.act _ (.callExport s.next) rfl h2
            cases he : code.exportRet with
            | panics => simp only [wp_throw]; exact h3
            | ret exp =>
              simp only [wp_mpure, setPlugin, wp_modPm, wp_emit]
              exact openLog_stable.act _ (.register s.next) rfl (openLog_stable.pm _ _ h3)

/-- The file of this name. -/
def FileOf (m : GoMap FileInfo) (done : List Str) (f : Str) : Prop := ∃ n ∈ done, ∃ info, m.get? n = some info ∧ info.file = f

theorem makes_loadNew {fs : FS} {it : Iter} {m : GoMap FileInfo} (hfile : ∀ k k' info info', m.get? k = some info → m.get? k' = some info' → info.file = info'.file → k = k')
    (hnd : (infoNames it m).Nodup) : Makes (OpenLog fs (FileOf m [])) (OpenLog fs (fun _ => True)) (loadNew it fs m) := by
  refine makes_forEach (fun done => OpenLog fs (FileOf m done)) (fun done s h => h.mono (fun _ _ => trivial)) ?_
  intro done name rest hl
  have hst : ∀ f, FileOf m done f → FileOf m (done ++ [name]) f := by
    rintro f ⟨n, hn, info, h1, h2⟩
    exact ⟨n, List.mem_append_left _ hn, info, h1, h2⟩
  cases hg : m.get? name with
  | none => exact makes_tagPanic (fun s h => h.mono hst)
  | some info =>
    refine makes_tagPanic (makes_wrapLoading (makes_loadPlugin hst ⟨name, by simp, info, hg, rfl⟩ ?_))
    rintro ⟨n, hn, info', h1, h2⟩
    have := hfile _ _ _ _ h1 hg h2
    subst this
    rw [hl, List.nodup_append] at hnd
    exact hnd.2.2 n hn n (by simp) rfl

/-- Nothing has been opened. -/
abbrev NoneYet (fs : FS) : LoadSt → Prop := OpenLog fs (fun _ => False)
/-- Any files have been opened. -/
abbrev AnyOpen (fs : FS) : LoadSt → Prop := OpenLog fs (fun _ => True)

omit [GoRuntime] in
theorem noneYet_any {fs : FS} (s : LoadSt) (h : NoneYet fs s) : AnyOpen fs s := h.mono (fun _ _ => trivial)

omit [GoRuntime] in
theorem makes_weaken {J K : LoadSt → Prop} {x : M α} (hx : Stays J x) (h : ∀ s, J s → K s) : Makes J K x := fun s hs => h _ (hx s hs)

omit [GoRuntime] in
theorem makes_throw_bind {J K : LoadSt → Prop} {α β : Type} (e : Err) (f : α → M β) (h : ∀ s, J s → K s) : Makes J K ((M.throw e : M α) >>= f) := fun s hs => h s hs

theorem makes_body {it : Iter} {fs : FS} {files : List Str} {old : Option Manager} {data : Nat} : Makes (NoneYet fs) (AnyOpen fs) (loadPluginsBody it fs files old data) := by
  have w := @noneYet_any fs
  have hj : Stable (NoneYet fs) := openLog_stable
  have hk : Stable (AnyOpen fs) := openLog_stable
  unfold loadPluginsBody
  dsimp only
  refine makes_bind stays_get (fun s => ?_) w
  split
  · exact makes_throw_bind _ _ w
  cases hd : findDuplicate it files with
  | some k => exact makes_weaken (stays_throw _) w
  | none =>
    dsimp only
    cases hb : buildFileInfoMap fs files .empty with
    | error e => exact makes_weaken (stays_throw _) w
    | ok m =>
      dsimp only
      refine makes_bind (stays_keepPlugins hj) (fun _ => makes_bind (stays_keepPlugins hj) (fun _ => makes_bind stays_get (fun s' => ?_) w) w) w
      obtain ⟨h1, h2, _⟩ := buildFileInfoMap_ok (findDuplicate_none hd) (by intro f _; rfl) hb
      have hinfo : ∀ k info, ((m.filter (fun k _ => !isNotReloadable old k)).filter (fun k info => !isUnchanged old k info)).get? k = some info →
          InfoOf fs info.file info ∧ fileKey info.file = k := by
        intro k info hk
        rw [GoMap.get?_filter, GoMap.get?_filter] at hk
        cases hmk : m.get? k with
        | none => rw [hmk] at hk; cases hk
        | some v =>
          rw [hmk] at hk
          have hv : v = info := by
            cases e1 : isNotReloadable old k <;> simp [e1] at hk
            exact hk.1
          subst hv
          have hkf : k ∈ files.map fileKey := by
            refine Classical.byContradiction (fun hn => ?_)
            rw [h1 k hn] at hmk; cases hmk
          obtain ⟨f, hf, rfl⟩ := List.mem_map.mp hkf
          obtain ⟨info', h3, h4⟩ := h2 f hf
          rw [hmk] at h3; cases h3
          have h5 := h4.2.1
          rw [h5]
          exact ⟨h4, rfl⟩
      generalize hI : (m.filter (fun k _ => !isNotReloadable old k)).filter (fun k info => !isUnchanged old k info) = infoMap at hinfo ⊢
      have hnames : (infoNames it infoMap).Nodup := by
        have hp : (infoNames it infoMap).Perm (infoMap.vals.map (·.name)) := by
          unfold infoNames
          refine (sortStrings_perm _).trans ?_
          have := (GoMap.rangeKV_vals_perm it .names infoMap).map (·.name)
          rwa [List.map_map] at this
        have hkeys : (infoMap.vals.map (·.name)).map name2key = infoMap.keys := by
          unfold GoMap.vals GoMap.keys
          rw [List.map_map, List.map_map]
          apply List.map_congr_left
          intro e he
          have := hinfo e.1 e.2 (GoMap.get?_eq_some.mpr he)
          show name2key e.2.name = e.1
          rw [this.1.1]; exact this.2
        refine hp.symm.nodup (List.Nodup.of_map name2key ?_)
        rw [hkeys]; exact infoMap.keys_nodup
      split
      · exact makes_throw_bind _ _ w
      refine makes_bind stays_outputStats1 (fun _ => makes_bind' (fun s hs => makes_loadNew ?_ hnames s (hs.mono (fun _ h => h.elim))) (fun _ => stays_finishLoad hk)) w
      intro k k' info info' e1 e2 e3
      rw [← (hinfo k info e1).2, ← (hinfo k' info' e2).2, e3]

theorem makes_impl {cfg : Config} {env : Env} {cbs : List (Nat × Outcome)} {old : Option Manager} : Makes (NoneYet env.fs) (AnyOpen env.fs) (loadPluginsImpl cfg env cbs old) := by
  have w := @noneYet_any env.fs
  have hj : Stable (NoneYet env.fs) := openLog_stable
  have hk : Stable (AnyOpen env.fs) := openLog_stable
  unfold loadPluginsImpl
  cases hd : env.dir with
  | none => exact makes_weaken (stays_throw _) w
  | some d =>
    obtain ⟨absDir, entries⟩ := d
    dsimp only
    cases whitelistError cfg.whitelist (qualifying cfg.whitelist entries) with
    | some e => exact makes_weaken (stays_throw _) w
    | none =>
      dsimp only
      unfold loadPluginFiles
      split
      · exact makes_weaken (stays_pure _) w
      refine makes_bind (stays_create hj) (fun _ => makes_bind' (makes_withCleanup hk makes_body) (fun _ => stays_bind (stays_callbacks hk) (fun _ => stays_bind stays_get (fun s => ?_)))) w
      cases buildDetails s.pm ((qualifying cfg.whitelist entries).map (joinPath absDir)) .empty with
      | none => exact stays_panic _
      | some d => exact stays_bind (stays_publishNew hk) (fun _ => stays_pure _)

/-- Which files a call opens for which instances, however the call ends: for a file at most one instance, for every instance a file. -/
theorem plan_openLog {cfg : Config} {env : Env} {k : Kind} {old : Option Manager} {next : Nat} (h : cfg.static = none ∨ k ≠ .load) :
    ((openedFor none (plan cfg env k old next).acts).map (·.2)).Nodup ∧
    (∀ e ∈ openedFor none (plan cfg env k old next).acts, Act.openPlugin e.2 ∈ (plan cfg env k old next).acts ∧ ∃ syms code, env.fs.openPlugin e.2 = .image syms code) ∧
    (∀ i, Act.callReloadable i ∈ (plan cfg env k old next).acts → i ∈ (openedFor none (plan cfg env k old next).acts).map (·.1)) ∧
    ∀ d i r, (plan cfg env k old next).acts = d ++ .callReloadable i :: r → ∃ f syms code, lastOpened none d = some f ∧ env.fs.openPlugin f = .image syms code := by
  have h0 : NoneYet env.fs ⟨next, noManager, []⟩ := ⟨by simp [openedFor], by simp, by simp [openedFor], by simp, by simp⟩
  have key : ∀ {α : Type} {x : M α}, Makes (NoneYet env.fs) (AnyOpen env.fs) x →
      AnyOpen env.fs (x ⟨next, noManager, []⟩).2 := fun hx => hx _ h0
  have : AnyOpen env.fs ⟨next, noManager, (plan cfg env k old next).acts⟩ := by
    cases k with
    | load =>
      have hs : cfg.static = none := h.resolve_right (fun he => he rfl)
      have hx : Makes (NoneYet env.fs) (AnyOpen env.fs) (apiLoad cfg env old) := by
        unfold apiLoad
        rw [hs]
        exact makes_impl
      have h1 := key hx
      exact ⟨h1.files, h1.only, h1.opened, h1.all, h1.before⟩
    | reload extra =>
      have hx : Makes (NoneYet env.fs) (AnyOpen env.fs) (apiReload cfg env extra old) :=
        makes_bind' makes_impl (fun _ => stays_bind (Stable.emit openLog_stable rfl) (fun _ => stays_pure _))
      have h1 := key hx
      exact ⟨h1.files, h1.only, h1.opened, h1.all, h1.before⟩
  exact ⟨this.files, this.opened, this.all, this.before⟩

omit [GoRuntime] in
theorem openedFor_none {l : List Act} (h : ∀ f, Act.openPlugin f ∉ l) : openedFor none l = [] := by
  induction l with
  | nil => rfl
  | cons a r ih =>
    have hr := ih (fun f hf => h f (by simp [hf]))
    cases a <;> first | exact hr | exact absurd (List.mem_cons_self ..) (h _)

/-- As `plan_openLog`, for every kind of load. -/
theorem plan_openLog_any {cfg : Config} {env : Env} {k : Kind} {old : Option Manager} {next : Nat} :
    ((openedFor none (plan cfg env k old next).acts).map (·.2)).Nodup ∧
    ∀ e ∈ openedFor none (plan cfg env k old next).acts, Act.openPlugin e.2 ∈ (plan cfg env k old next).acts ∧ ∃ syms code, env.fs.openPlugin e.2 = .image syms code := by
  by_cases h : cfg.static = none ∨ k ≠ .load
  · exact ⟨(plan_openLog h).1, (plan_openLog h).2.1⟩
  · have : openedFor none (plan cfg env k old next).acts = [] := openedFor_none (fun f hf => h (plan_opens hf).1)
    rw [this]
    exact ⟨by simp, by simp⟩

end Hotswap
