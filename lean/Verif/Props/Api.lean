import Verif.Proofs.StrLemmas
import Verif.Props.Selection
import Verif.Props.Phases

/-!
# The rest of the run-time API: C33 (`InvokeEach`), C34 (`Details.String`), C35 (`Lookup`), C36 (temporary copies)
-/

namespace Hotswap

/-! ### C33 -/

section C33

/-- What one plugin contributes to the history of `InvokeEach`: one call, and one log record if the call failed. -/
def report (name : Str) (params : List Val) (p : Plugin) : Outcome → List InvEv
  | .ok => [.call p.inst name params]
  | .err => [.call p.inst name params, .logErr p.inst]
  | .panics => [.call p.inst name params, .logPanic p.inst]

/-- The plugins `ps` are called one after the other: `os` are the outcomes of the calls, each one the reaction of the plugin to the
history at that moment; `ev` is the history that results. -/
structure CalledInTurn (react : Reaction) (name : Str) (params : List Val) (done : List InvEv) (ps : List Plugin) (os : List Outcome)
    (ev : List InvEv) : Prop where
  length : os.length = ps.length
  events : ev = (ps.zip os).flatMap (fun x => report name params x.1 x.2)
  reactions : ∀ i p o, ps[i]? = some p → os[i]? = some o →
    o = react (done ++ ((ps.zip os).take i).flatMap (fun x => report name params x.1 x.2)) p name params

theorem invokeImpl_eq (react : Reaction) (name : Str) (params : List Val) (done : List InvEv) (p : Plugin) :
    invokeImpl react name params done p = done ++ report name params p (react done p name params) := by
  unfold invokeImpl
  simp only
  cases react done p name params <;> simp [report]

theorem foldl_calledInTurn (react : Reaction) (name : Str) (params : List Val) (ps : List Plugin) (done : List InvEv) :
    ∃ os ev, ps.foldl (invokeImpl react name params) done = done ++ ev ∧ CalledInTurn react name params done ps os ev := by
  induction ps generalizing done with
  | nil => exact ⟨[], [], by simp, by simp, by simp, by simp⟩
  | cons p ps ih =>
    obtain ⟨os, ev, h1, h2⟩ := ih (invokeImpl react name params done p)
    refine ⟨react done p name params :: os, report name params p (react done p name params) ++ ev, ?_, ?_, ?_, ?_⟩
    · rw [List.foldl_cons, h1, invokeImpl_eq]; simp
    · simp [h2.length]
    · simp [h2.events]
    · intro i q o hq ho
      cases i with
      | zero => simp at hq ho; subst hq ho; simp
      | succ i =>
        simp at hq ho
        have := h2.reactions i q o hq ho
        rw [this, invokeImpl_eq]
        simp

theorem backLoop_eq (react : Reaction) (name : Str) (params : List Val) (all : List Plugin) (n : Nat) (hn : n ≤ all.length) (done : List InvEv) :
    backLoop react name params all n done = (all.take n).reverse.foldl (invokeImpl react name params) done := by
  induction n generalizing done with
  | zero => simp [backLoop]
  | succ n ih =>
    have hlt : n < all.length := hn
    unfold backLoop
    rw [List.getElem?_eq_getElem hlt]
    simp only
    rw [ih (by omega), List.take_add_one, List.getElem?_eq_getElem hlt, Option.toList_some, List.reverse_append, List.reverse_singleton,
      List.singleton_append, List.foldl_cons]

/-- **C33.** `InvokeEach` calls `InvokeFunc` of every plugin exactly once, in `Plugins()` order, whatever the calls return; each error and each
panic is logged right after its call, and nothing else is logged. -/
theorem C33_invoke_each (pm : Manager) (react : Reaction) (name : Str) (params : List Val) (done : List InvEv) :
    ∃ os ev, pm.invokeEach react name params done = done ++ ev ∧ CalledInTurn react name params done pm.plugins os ev :=
  foldl_calledInTurn ..

/-- **C33.** `InvokeEachBackward` does the same in reverse order. -/
theorem C33_invoke_each_backward (pm : Manager) (react : Reaction) (name : Str) (params : List Val) (done : List InvEv) :
    ∃ os ev, pm.invokeEachBackward react name params done = done ++ ev ∧ CalledInTurn react name params done pm.plugins.reverse os ev := by
  unfold Manager.invokeEachBackward
  rw [backLoop_eq _ _ _ _ _ (Nat.le_refl _), List.take_length]
  exact foldl_calledInTurn ..

/-- The instances called, in order. -/
def calledInsts (ev : List InvEv) : List Nat :=
  ev.filterMap (fun e => match e with | .call i _ _ => some i | _ => none)

theorem CalledInTurn.insts {react : Reaction} {name : Str} {params : List Val} {done : List InvEv} {ps : List Plugin} {os : List Outcome}
    {ev : List InvEv} (h : CalledInTurn react name params done ps os ev) : calledInsts ev = ps.map (·.inst) := by
  rw [h.events]
  have hl := h.length
  clear h
  induction ps generalizing os with
  | nil => simp [calledInsts]
  | cons p ps ih =>
    cases os with
    | nil => simp at hl
    | cons o os =>
      simp only [List.zip_cons_cons, List.flatMap_cons, List.map_cons]
      have := ih (by simpa using hl)
      unfold calledInsts at this ⊢
      rw [List.filterMap_append, this]
      cases o <;> simp [report]

variable [GoRuntime]

/-- **C33**, for what `Current()` returns in any execution: every plugin that `FindPlugin` finds is called exactly once, by `InvokeEach` after all
its dependencies. -/
theorem C33_current {cfg : Config} (hcfg : cfg.OK) {m : Machine} (h : Reachable cfg m) {pm : Manager} (hpm : m.current = some pm)
    (react : Reaction) (name : Str) (params : List Val) :
    (∀ n p, pm.findPlugin n = some p →
      (calledInsts (pm.invokeEach react name params [])).count p.inst = 1 ∧
      (calledInsts (pm.invokeEachBackward react name params [])).count p.inst = 1) ∧
    (∀ n p d q, pm.findPlugin n = some p → d ∈ p.deps → pm.findPlugin d = some q →
      ∃ a b, calledInsts (pm.invokeEach react name params []) = a ++ p.inst :: b ∧ q.inst ∈ a) ∧
    calledInsts (pm.invokeEachBackward react name params []) = (calledInsts (pm.invokeEach react name params [])).reverse := by
  obtain ⟨t1, t2, t3, t4⟩ := C01_current_topological hcfg h hpm
  obtain ⟨os, ev, h1, h2⟩ := C33_invoke_each pm react name params []
  obtain ⟨os', ev', h1', h2'⟩ := C33_invoke_each_backward pm react name params []
  simp only [List.nil_append] at h1 h1'
  have hg := ((inv hcfg h).cur pm hpm).1
  have hnd : (pm.plugins.map (·.inst)).Nodup := (hg.ordered.map _).symm.nodup hg.nodup
  rw [h1, h1', h2.insts, h2'.insts]
  refine ⟨?_, ?_, by simp⟩
  · intro n p hp
    have hm : p.inst ∈ pm.plugins.map (·.inst) := List.mem_map.mpr ⟨p, t1 n p hp, rfl⟩
    refine ⟨List.count_eq_one_of_mem hnd hm, ?_⟩
    rw [List.map_reverse, List.count_reverse]
    exact List.count_eq_one_of_mem hnd hm
  · intro n p d q hp hd hq
    obtain ⟨a, b, hab⟩ := List.append_of_mem (t1 n p hp)
    obtain ⟨q', hq', hf⟩ := t4 a p b hab d hd
    rw [hq] at hf; cases hf
    exact ⟨a.map (·.inst), b.map (·.inst), by rw [hab]; simp, List.mem_map.mpr ⟨q, hq', rfl⟩⟩

end C33

/-! ### C34 -/

section C34

/-- How one entry of `Details` is printed: the plugin name taken from the file name, a colon and the status. -/
def detailsEntry (file status : Str) : Str := pluginName file ++ ": ".toList ++ status

theorem detailsLoop_succ (d : GoMap Str) (i : Nat) (ks : List Str) (buf : Str) :
    detailsLoop d (i + 1) ks buf = buf ++ ks.flatMap (fun k => ", ".toList ++ detailsEntry k ((d.get? k).getD [])) := by
  induction ks generalizing i buf with
  | nil => simp [detailsLoop]
  | cons k r ih =>
    unfold detailsLoop
    simp only [gt_iff_lt, Nat.zero_lt_succ, if_true]
    rw [ih]
    simp [detailsEntry, pluginName]

theorem flatMap_comma (l : List Str) (a : Str) :
    a ++ l.flatMap (fun x => ", ".toList ++ x) = Str.join ", ".toList (a :: l) := by
  induction l generalizing a with
  | nil => simp [Str.join]
  | cons b l ih =>
    rw [join_cons _ _ (by simp), ← ih b]
    simp

/-- **C34.** `String()` lists every entry exactly once, sorted by key, as `name: status` separated by `, `. -/
theorem C34_sorted (it : Iter) (d : GoMap Str) :
    ∃ ks : List Str, ks.Pairwise (· < ·) ∧ (∀ k, k ∈ ks ↔ ∃ v, d.get? k = some v) ∧
      detailsString it d = Str.join ", ".toList (ks.map (fun k => detailsEntry k ((d.get? k).getD []))) := by
  refine ⟨sortStrings (d.range it .details), ?_, ?_, ?_⟩
  · have hs := sortStrings_sorted (d.range it .details)
    have hn : (sortStrings (d.range it .details)).Nodup := (sortStrings_perm _).symm.nodup (GoMap.range_nodup it _ d)
    have := hs.and hn
    refine this.imp ?_
    intro a b ⟨h1, h2⟩
    rcases List.le_iff_lt_or_eq.mp h1 with h | h
    · exact h
    · exact absurd h h2
  · intro k
    rw [mem_sortStrings, GoMap.mem_range, GoMap.mem_keys]
  · unfold detailsString
    cases sortStrings (d.range it .details) with
    | nil => simp [detailsLoop, Str.join]
    | cons k r =>
      rw [List.map_cons, ← flatMap_comma]
      unfold detailsLoop
      simp only [gt_iff_lt, Nat.lt_irrefl, if_false, Nat.zero_add]
      rw [detailsLoop_succ]
      simp [detailsEntry, pluginName, List.flatMap_map]

/-- **C34.** The string depends on the contents of the map only: neither on the way it was built nor on the iteration orders. -/
theorem C34_canonical (it it' : Iter) (d d' : GoMap Str) (h : ∀ k, d.get? k = d'.get? k) : detailsString it d = detailsString it' d' := by
  obtain ⟨ks, h1, h2, h3⟩ := C34_sorted it d
  obtain ⟨ks', h1', h2', h3'⟩ := C34_sorted it' d'
  have hp : ks.Perm ks' := by
    refine (List.perm_ext_iff_of_nodup (h1.imp (fun h => ?_)) (h1'.imp (fun h => ?_))).mpr ?_
    · rintro rfl; exact absurd h (List.lt_irrefl _)
    · rintro rfl; exact absurd h (List.lt_irrefl _)
    · intro k; rw [h2, h2', h k]
  have : ks = ks' := sorted_perm_unique (h1.imp (fun h => List.le_of_lt h)) (h1'.imp (fun h => List.le_of_lt h)) hp
  rw [h3, h3', this]
  congr 1
  exact List.map_congr_left (fun k _ => by rw [h k])

/-- Plugin name free of `,` and `:`, status free of `,`. -/
def Printable (d : GoMap Str) : Prop :=
  ∀ k v, d.get? k = some v → ',' ∉ pluginName k ∧ ':' ∉ pluginName k ∧ ',' ∉ v

/-- The (name, status) pairs of a map in key order. -/
def statusList (d : GoMap Str) : List (Str × Str) := (sortStrings d.keys).map (fun k => (pluginName k, (d.get? k).getD []))

/-- **C34.** If names and statuses contain no separator characters, the string determines names and statuses of all entries. -/
theorem C34_readable (it it' : Iter) (d d' : GoMap Str) (hd : Printable d) (hd' : Printable d') (h : detailsString it d = detailsString it' d') :
    statusList d = statusList d' := by
  have form : ∀ (it : Iter) (d : GoMap Str), Printable d → ∃ l : List Str, detailsString it d = Str.join ", ".toList l ∧
      l = (statusList d).map (fun e => e.1 ++ ": ".toList ++ e.2) ∧ (∀ e ∈ statusList d, ',' ∉ e.1 ∧ ':' ∉ e.1 ∧ ',' ∉ e.2) := by
    intro it d hd
    obtain ⟨ks, h1, h2, h3⟩ := C34_sorted it d
    have hk : ks = sortStrings d.keys := by
      refine sorted_perm_unique (h1.imp (fun h => List.le_of_lt h)) (sortStrings_sorted _) ?_
      refine (List.perm_ext_iff_of_nodup (h1.imp (fun h => ?_)) ((sortStrings_perm _).symm.nodup d.keys_nodup)).mpr ?_
      · rintro rfl; exact absurd h (List.lt_irrefl _)
      · intro k; rw [h2, mem_sortStrings, GoMap.mem_keys]
    refine ⟨_, h3, ?_, ?_⟩
    · rw [hk]; simp [statusList, detailsEntry, Function.comp_def]
    · intro e he
      obtain ⟨k, hk', rfl⟩ := List.mem_map.mp he
      obtain ⟨v, hv⟩ := GoMap.mem_keys.mp (mem_sortStrings.mp hk')
      simp only [hv, Option.getD_some]
      exact hd k v hv
  obtain ⟨l, e1, e2, e3⟩ := form it d hd
  obtain ⟨l', e1', e2', e3'⟩ := form it' d' hd'
  have hcomma : ∀ (s : List (Str × Str)), (∀ e ∈ s, ',' ∉ e.1 ∧ ':' ∉ e.1 ∧ ',' ∉ e.2) →
      ∀ a ∈ s.map (fun e => e.1 ++ ": ".toList ++ e.2), ',' ∉ a ∧ a ≠ [] := by
    intro s hs a ha
    obtain ⟨e, he, rfl⟩ := List.mem_map.mp ha
    obtain ⟨x1, x2, x3⟩ := hs e he
    refine ⟨?_, by simp⟩
    simp only [List.mem_append, not_or]
    exact ⟨⟨x1, by decide⟩, x3⟩
  have hl : l = l' := by
    refine join_comma_inj ?_ ?_ (by rw [← e1, ← e1', h])
    · rw [e2]; exact hcomma _ e3
    · rw [e2']; exact hcomma _ e3'
  rw [e2, e2'] at hl
  have : ∀ (s s' : List (Str × Str)), (∀ e ∈ s, ':' ∉ e.1) → (∀ e ∈ s', ':' ∉ e.1) →
      s.map (fun e => e.1 ++ ": ".toList ++ e.2) = s'.map (fun e => e.1 ++ ": ".toList ++ e.2) → s = s' := by
    intro s
    induction s with
    | nil => intro s' _ _ h; simpa using h.symm
    | cons e s ih =>
      intro s' h1 h2 h
      cases s' with
      | nil => simp at h
      | cons e' s' =>
        simp only [List.map_cons, List.cons.injEq] at h
        obtain ⟨ha, hb⟩ := h
        have sep : ": ".toList = ':' :: [' '] := rfl
        rw [sep] at ha
        obtain ⟨q1, q2⟩ := split_unique (c := ':') (x := ' ' :: e.2) (y := ' ' :: e'.2) (h1 e (by simp)) (h2 e' (by simp)) (by simpa using ha)
        rw [ih s' (fun x hx => h1 x (by simp [hx])) (fun x hx => h2 x (by simp [hx])) hb]
        congr 1
        exact Prod.ext q1 (List.cons.inj q2).2
  exact this _ _ (fun e he => (e3 e he).2.1) (fun e he => (e3' e he).2.1) hl

/-- **C34.** For files of one directory, as `Details` of a load has them, the string determines the map. -/
theorem C34_injective (it it' : Iter) (d d' : GoMap Str) (hd : Printable d) (hd' : Printable d') (dir : Str)
    (hdir : ∀ k, (d.get? k ≠ none ∨ d'.get? k ≠ none) → ∃ n, '/' ∉ n ∧ k = joinPath dir (n ++ fileNameExt))
    (h : detailsString it d = detailsString it' d') : ∀ k, d.get? k = d'.get? k := by
  have hs := C34_readable it it' d d' hd hd' h
  have mem : ∀ (d : GoMap Str), (∀ k, d.get? k ≠ none → ∃ n, '/' ∉ n ∧ k = joinPath dir (n ++ fileNameExt)) → ∀ n v, '/' ∉ n →
      ((n, v) ∈ statusList d ↔ d.get? (joinPath dir (n ++ fileNameExt)) = some v) := by
    intro d hdir n v hn
    constructor
    · intro hm
      obtain ⟨k, hk, he⟩ := List.mem_map.mp hm
      obtain ⟨v', hv'⟩ := GoMap.mem_keys.mp (mem_sortStrings.mp hk)
      obtain ⟨n', hn', rfl⟩ := hdir k (by rw [hv']; simp)
      rw [C52_name_round_trip dir n' hn', hv'] at he
      simp at he
      obtain ⟨rfl, rfl⟩ := he
      exact hv'
    · intro hv
      refine List.mem_map.mpr ⟨_, mem_sortStrings.mpr (GoMap.mem_keys.mpr ⟨v, hv⟩), ?_⟩
      rw [C52_name_round_trip dir n hn, hv]; rfl
  have m1 := mem d (fun k hk => hdir k (.inl hk))
  have m2 := mem d' (fun k hk => hdir k (.inr hk))
  intro k
  cases hk : d.get? k with
  | some v =>
    obtain ⟨n, hn, rfl⟩ := hdir k (.inl (by rw [hk]; simp))
    have := (m1 n v hn).mpr hk
    rw [hs] at this
    exact ((m2 n v hn).mp this).symm
  | none =>
    cases hk' : d'.get? k with
    | none => rfl
    | some v =>
      obtain ⟨n, hn, rfl⟩ := hdir k (.inr (by rw [hk']; simp))
      have := (m2 n v hn).mpr hk'
      rw [← hs] at this
      rw [(m1 n v hn).mp this] at hk
      cases hk

end C34

/-! ### C35 -/

section C35
variable [GoRuntime]

/-- The arguments of `Lookup` that pass its checks: a non-empty name and a non-nil pointer; `t` is the type it points to. -/
def ValidArgs (sym : Str) (out : Option Val) (t : GoType) : Prop :=
  sym ≠ [] ∧ ∃ o, out = some o ∧ o.typ = .ptr t ∧ o.isNilValue = false

theorem lookup_valid {tbl : Str → Option GoType} {sym : Str} {out : Option Val} {t : GoType} (h : ValidArgs sym out t) :
    lookup (some tbl) sym out = match tbl sym with
      | none => .notExist
      | some s => if GoRuntime.assignable s t then .ok (.direct s)
        else match s with
          | .ptr e => if GoRuntime.assignable e t then .ok (.deref e) else .mismatch
          | _ => .mismatch := by
  obtain ⟨h1, o, rfl, h2, h3⟩ := h
  unfold lookup
  rw [if_neg h1]
  simp only [isNil, h3, Bool.and_false, Bool.false_eq_true, if_false, h2]
  cases tbl sym with
  | none => rfl
  | some s => cases s <;> rfl

theorem lookup_invalid {syms : Option (Str → Option GoType)} {sym : Str} {out : Option Val} (h : ∀ t, ¬ ValidArgs sym out t) :
    lookup syms sym out = .emptyName ∨ lookup syms sym out = .nilOut ∨ lookup syms sym out = .notPointer := by
  unfold lookup
  split
  · exact .inl rfl
  · rename_i h1
    split
    · exact .inr (.inl rfl)
    · rename_i h2
      cases out with
      | none => exact .inr (.inl rfl)
      | some o =>
        simp only
        cases ht : o.typ with
        | ptr t =>
          refine absurd ⟨h1, o, rfl, ht, ?_⟩ (h t)
          simpa [isNil, ht, GoType.isNilableKind] using h2
        | _ => exact .inr (.inr rfl)

/-- **C35.** On a dynamically loaded plugin, `Lookup` stores a value only if it returns nil, and then the stored value is the symbol itself if its type is
assignable to the type `out` points to, and otherwise the value the symbol points to, whose type then is. -/
theorem C35_stores (tbl : Str → Option GoType) (sym : Str) (out : Option Val) (w : Written) :
    lookup (some tbl) sym out = .ok w ↔
      ∃ t s, ValidArgs sym out t ∧ tbl sym = some s ∧
        ((GoRuntime.assignable s t = true ∧ w = .direct s) ∨
         (GoRuntime.assignable s t = false ∧ ∃ e, s = .ptr e ∧ GoRuntime.assignable e t = true ∧ w = .deref e)) := by
  by_cases hv : ∃ t, ValidArgs sym out t
  · obtain ⟨t, hv⟩ := hv
    have uniq : ∀ t', ValidArgs sym out t' → t' = t := by
      intro t' h'
      obtain ⟨_, o, rfl, h2, _⟩ := hv
      obtain ⟨_, o', ho, h2', _⟩ := h'
      cases ho
      rw [h2] at h2'; injection h2' with h2'; exact h2'.symm
    rw [lookup_valid hv]
    constructor
    · intro h
      cases hs : tbl sym with
      | none => rw [hs] at h; cases h
      | some s =>
        rw [hs] at h
        simp only at h
        refine ⟨t, s, hv, rfl, ?_⟩
        split at h
        · rename_i ha; injection h with h; exact .inl ⟨ha, h.symm⟩
        · rename_i ha
          refine .inr ⟨by simpa using ha, ?_⟩
          split at h
          · split at h
            · rename_i e he; injection h with h; exact ⟨e, rfl, he, h.symm⟩
            · cases h
          · cases h
    · rintro ⟨t', s, hv', hs, h⟩
      have := uniq t' hv'
      subst this
      rw [hs]
      simp only
      rcases h with ⟨ha, rfl⟩ | ⟨ha, e, rfl, he, rfl⟩
      · rw [if_pos ha]
      · rw [if_neg (by simp [ha])]; simp [he]
  · have hv' : ∀ t, ¬ ValidArgs sym out t := fun t h => hv ⟨t, h⟩
    constructor
    · intro h
      rcases lookup_invalid (syms := some tbl) hv' with h' | h' | h' <;> rw [h'] at h <;> cases h
    · rintro ⟨t, s, h, _⟩
      exact absurd h (hv' t)

/-- **C35.** The value stored always has a type assignable to the type `out` points to. -/
theorem C35_type_safe (syms : Option (Str → Option GoType)) (sym : Str) (out : Option Val) (w : Written) (h : lookup syms sym out = .ok w) :
    ∃ o t, out = some o ∧ o.typ = .ptr t ∧ GoRuntime.assignable w.typ t = true := by
  cases syms with
  | none =>
    exfalso
    by_cases hv : ∃ t, ValidArgs sym out t
    · obtain ⟨t, h1, o, rfl, h2, h3⟩ := hv
      unfold lookup at h
      rw [if_neg h1] at h
      simp [isNil, h3, h2] at h
    · rcases lookup_invalid (syms := none) (fun t h' => hv ⟨t, h'⟩) with h' | h' | h' <;> rw [h'] at h <;> cases h
  | some tbl =>
    obtain ⟨t, s, ⟨_, o, ho, h2, _⟩, _, hw⟩ := (C35_stores tbl sym out w).mp h
    refine ⟨o, t, ho, h2, ?_⟩
    rcases hw with ⟨ha, rfl⟩ | ⟨_, e, rfl, he, rfl⟩
    · exact ha
    · exact he

/-- **C35.** `ErrNotExist` is returned exactly when the arguments are valid and the plugin has no such symbol. -/
theorem C35_not_exist (tbl : Str → Option GoType) (sym : Str) (out : Option Val) :
    lookup (some tbl) sym out = .notExist ↔ tbl sym = none ∧ ∃ t, ValidArgs sym out t := by
  constructor
  · intro h
    by_cases hv : ∃ t, ValidArgs sym out t
    · refine ⟨?_, hv⟩
      obtain ⟨t, hv⟩ := hv
      rw [lookup_valid hv] at h
      cases hs : tbl sym with
      | none => rfl
      | some s =>
        rw [hs] at h
        simp only at h
        split at h
        · cases h
        · split at h
          · split at h <;> cases h
          · cases h
    · rcases lookup_invalid (syms := some tbl) (fun t h' => hv ⟨t, h'⟩) with h' | h' | h' <;> rw [h'] at h <;> cases h
  · rintro ⟨hs, t, hv⟩
    rw [lookup_valid hv, hs]

/-- **C35.** A dynamically loaded plugin's `Lookup` never panics. -/
theorem C35_dynamic_never_panics (tbl : Str → Option GoType) (sym : Str) (out : Option Val) : lookup (some tbl) sym out ≠ .panics := by
  by_cases hv : ∃ t, ValidArgs sym out t
  · obtain ⟨t, hv⟩ := hv
    rw [lookup_valid hv]
    cases tbl sym with
    | none => simp
    | some s =>
      simp only
      split
      · simp
      · split
        · split <;> simp
        · simp
  · rcases lookup_invalid (syms := some tbl) (fun t h' => hv ⟨t, h'⟩) with h' | h' | h' <;> rw [h'] <;> simp

/-- **C35.** On a statically linked plugin every call with valid arguments panics; no call ever stores anything. -/
theorem C35_static_panics (sym : Str) (out : Option Val) : lookup none sym out = .panics ↔ ∃ t, ValidArgs sym out t := by
  constructor
  · intro h
    by_cases hv : ∃ t, ValidArgs sym out t
    · exact hv
    · rcases lookup_invalid (syms := none) (fun t h' => hv ⟨t, h'⟩) with h' | h' | h' <;> rw [h'] at h <;> cases h
  · rintro ⟨t, h1, o, rfl, h2, h3⟩
    unfold lookup
    rw [if_neg h1]
    simp [isNil, h3, h2]

end C35

/-! ### C36 -/

section C36

/-- **C36.** In one directory the names of the copies differ unless plugin name and checksum agree. -/
theorem C36_copy_names_distinct (n n' : Str) (s s' : Nat) (h : copyName n s = copyName n' s') : n = n' ∧ s = s' := by
  unfold copyName at h
  have h2 : ∀ s, '-' ∉ sharpHex8 s ++ fileNameExt := by
    intro s
    simp only [List.mem_append, not_or]
    exact ⟨dash_not_mem_sharpHex8 s, by decide⟩
  have h' : n ++ '-' :: (sharpHex8 s ++ fileNameExt) = n' ++ '-' :: (sharpHex8 s' ++ fileNameExt) := by simpa using h
  obtain ⟨rfl, h3⟩ := split_unique_last (h2 s) (h2 s') h'
  exact ⟨rfl, sharpHex8_inj (List.append_cancel_right h3)⟩

theorem joinPath_right_inj {d a b : Str} (h : joinPath d a = joinPath d b) : a = b := by
  unfold joinPath at h
  split at h
  · exact (List.cons.inj h).2
  · simpa using h

theorem dir_joinPath {dir x : Str} (hs : '/' ∉ x) (hd : dir = ['/'] ∨ (dir ≠ [] ∧ dir.getLast? ≠ some '/')) : filepathDir (joinPath dir x) = dir := by
  have hr : '/' ∉ x.reverse := by simpa using hs
  have step : ∀ d : Str, ((d ++ '/' :: x).reverse.dropWhile (· != '/')).reverse = d ++ ['/'] := by
    intro d
    rw [List.reverse_append, List.reverse_cons, List.append_assoc, List.dropWhile_append_of_pos]
    · simp
    · intro a ha
      simp only [bne_iff_ne, ne_eq]
      rintro rfl
      exact hr ha
  rcases hd with rfl | ⟨hne, hl⟩
  · unfold joinPath
    rw [if_pos rfl]
    unfold filepathDir
    simp only
    rw [show '/' :: x = ([] : Str) ++ '/' :: x from rfl, step []]
    rfl
  · have hns : dir ≠ ['/'] := by rintro rfl; simp at hl
    unfold joinPath
    rw [if_neg hns]
    unfold filepathDir
    simp only
    rw [step dir]
    have : dropTrailingSlashes (dir ++ ['/']) = dir := by
      unfold dropTrailingSlashes
      have hr : dir.reverse ≠ [] := by simpa using hne
      obtain ⟨c, t, hc⟩ := List.exists_cons_of_ne_nil hr
      have hcs : c ≠ '/' := by
        rintro rfl
        apply hl
        have : dir = t.reverse ++ ['/'] := by rw [← List.reverse_reverse dir, hc]; simp
        rw [this]; simp
      rw [List.reverse_append]
      simp only [List.reverse_cons, List.reverse_nil, List.nil_append, List.singleton_append]
      rw [List.dropWhile_cons_of_pos (by simp), hc, List.dropWhile_cons_of_neg (by simpa using hcs), ← hc, List.reverse_reverse]
    rw [this, if_neg hne]

/-- **C36.** Within one load (one temporary directory, plugin files of one directory, given by its clean absolute path), the copies of two files have the
same path only if they are the same file with the same checksum. Whatever the checksums are, different plugins get different copies. -/
theorem C36_copies_distinct (dirName dir x y : Str) (s s' : Nat) (hx : '/' ∉ x) (hy : '/' ∉ y)
    (hd : dir = ['/'] ∨ (dir ≠ [] ∧ dir.getLast? ≠ some '/'))
    (h : copyPath dirName (joinPath dir (x ++ fileNameExt)) (pluginName (joinPath dir (x ++ fileNameExt))) s =
      copyPath dirName (joinPath dir (y ++ fileNameExt)) (pluginName (joinPath dir (y ++ fileNameExt))) s') : x = y ∧ s = s' := by
  have hx' : '/' ∉ x ++ fileNameExt := by simp [hx, ext_no_slash]
  have hy' : '/' ∉ y ++ fileNameExt := by simp [hy, ext_no_slash]
  unfold copyPath at h
  rw [dir_joinPath hx' hd, dir_joinPath hy' hd, C52_name_round_trip dir x hx, C52_name_round_trip dir y hy] at h
  exact C36_copy_names_distinct x y s s' (joinPath_right_inj h)

end C36

/-! ### Examples -/

namespace Demo
attribute [local instance] rt

/-- C33: in `m1` two plugins are called; one fails, one panics, both are reached. -/
def moody : Reaction := fun done _ _ _ => if done.isEmpty then .panics else .err

example : (m1.current.map (fun pm => pm.invokeEach moody "f".toList [] [])) =
    some [.call 2 "f".toList [], .logPanic 2, .call 1 "f".toList [], .logErr 1] ∨
    (m1.current.map (fun pm => pm.invokeEach moody "f".toList [] [])) =
    some [.call 1 "f".toList [], .logPanic 1, .call 2 "f".toList [], .logErr 2] := by decide +kernel

example : ∃ pm, m1.current = some pm ∧ pm.plugins.length = 2 := by
  have : (m1.current.map (fun pm => pm.plugins.length)) = some 2 := by decide +kernel
  cases h : m1.current with
  | none => rw [h] at this; cases this
  | some pm => rw [h] at this; exact ⟨pm, rfl, by simpa using this⟩

/-- C34: a printable map with two entries. -/
def twoDetails : GoMap Str := (GoMap.empty.insert appFile "ok".toList).insert baseFile "unchanged".toList

example : detailsString Iter.id twoDetails = "app: ok, base: unchanged".toList ∧ detailsString Iter.rev twoDetails = detailsString Iter.id twoDetails := by
  decide +kernel

example : Printable twoDetails := by
  intro k v h
  have hm := GoMap.get?_eq_some.mp h
  have : ∀ e ∈ twoDetails.entries, ',' ∉ pluginName e.1 ∧ ':' ∉ pluginName e.1 ∧ ',' ∉ e.2 := by decide +kernel
  exact this (k, v) hm

/-- C35: valid arguments, a direct and an indirect hit, a miss. -/
example : ValidArgs "X".toList (some ⟨.ptr (.basic 1), false, 7⟩) (.basic 1) := ⟨by decide, _, rfl, rfl, rfl⟩
example : lookup (some (fun _ => some (.func 1))) "X".toList (some ⟨.ptr (.func 1), false, 7⟩) = .ok (.direct (.func 1)) := by decide +kernel
example : lookup (some (fun _ => some (.ptr (.basic 1)))) "X".toList (some ⟨.ptr (.basic 1), false, 7⟩) = .ok (.deref (.basic 1)) := by decide +kernel
example : lookup (some (fun _ => none)) "X".toList (some ⟨.ptr (.basic 1), false, 7⟩) = .notExist := by decide +kernel

/-- C36: what a path looks like. -/
example : copyPath "t-1".toList baseFile "base".toList 171 = "/p/tmp/t-1/base-    0xab.so".toList := by
  have : hexDigits 171 = "ab".toList := by rw [hexDigits]; simp; rw [hexDigits]; simp; decide
  unfold copyPath copyName sharpHex8
  rw [this]
  decide +kernel

end Demo

end Hotswap
