import Verif.Go.Str

/-!
# Go maps with string keys

A map is a list of entries with distinct keys.  The list order carries no meaning: every `range` loop
of the code asks an `Iter`, an arbitrary iteration order chosen by the environment.
-/

namespace Hotswap

/-- A Go `map[string]α`. -/
structure GoMap (α : Type) where
  entries : List (Str × α)
  nodup : (entries.map Prod.fst).Nodup

namespace GoMap
variable {α : Type}

/-- `make(map[string]α)` -/
def empty : GoMap α := ⟨[], by simp⟩

instance : Inhabited (GoMap α) := ⟨empty⟩

/-- the set of keys (in the meaningless storage order) -/
def keys (m : GoMap α) : List Str := m.entries.map Prod.fst

/-- the values (in the meaningless storage order) -/
def vals (m : GoMap α) : List α := m.entries.map Prod.snd

/-- `v, ok := m[k]` -/
def get? (m : GoMap α) (k : Str) : Option α := m.entries.lookup k

/-- `m[k] = v` -/
def insert (m : GoMap α) (k : Str) (v : α) : GoMap α where
  entries := (k, v) :: m.entries.filter (fun e => e.1 != k)
  nodup := by
    rw [List.map_cons, List.nodup_cons]
    refine ⟨?_, (List.Sublist.map _ List.filter_sublist).nodup m.nodup⟩
    simp

/-- the entries whose key and value satisfy `p`; a loop that deletes some keys -/
def filter (m : GoMap α) (p : Str → α → Bool) : GoMap α where
  entries := m.entries.filter (fun e => p e.1 e.2)
  nodup := (List.Sublist.map _ List.filter_sublist).nodup m.nodup

/-- update of the value stored under `k` through its pointer; no effect if `k` is absent -/
def modify (m : GoMap α) (k : Str) (f : α → α) : GoMap α where
  entries := m.entries.map (fun e => if e.1 = k then (e.1, f e.2) else e)
  nodup := by
    have : (m.entries.map (fun e => if e.1 = k then (e.1, f e.2) else e)).map Prod.fst
        = m.entries.map Prod.fst := by
      rw [List.map_map]; congr 1; funext e; simp only [Function.comp]; split <;> rfl
    rw [this]; exact m.nodup

/-- `len(m)` -/
def size (m : GoMap α) : Nat := m.entries.length

end GoMap

/-- The `range`-over-map loops of the modelled code.  Each loop of each call may use its own order. -/
inductive Site where
  | counters        -- pluginManager.go:110
  | notReloadable   -- pluginManager.go:122
  | unchanged       -- pluginManager.go:126
  | names           -- pluginManager.go:609
  | depKeys         -- pluginManager.go:239
  | cyclic          -- pluginManager.go:293
  | rebuilt         -- pluginManager.go:307
  | order           -- pluginManager.go:348
  | liveFuncs (i : Nat)  -- pluginManager.go:439, i-th plugin
  | liveTypes (i : Nat)  -- pluginManager.go:463, i-th plugin
  | stats           -- pluginManager.go:71
  | free            -- pluginManager.go:507
  | static          -- staticPlugin.go:64
  | details         -- pluginManagerSwapper.go:224
  | other (i : Nat)
  deriving DecidableEq

/-- An arbitrary choice of map iteration orders. -/
structure Iter where
  ord : Site → List Str → List Str
  perm : ∀ s l, (ord s l).Perm l

namespace Iter
/-- iteration in storage order (used in examples only) -/
def id : Iter := ⟨fun _ l => l, fun _ _ => .refl _⟩
/-- iteration in reverse storage order (used in examples only) -/
def rev : Iter := ⟨fun _ l => l.reverse, fun _ l => List.reverse_perm l⟩
end Iter

/-- `for k := range m` -/
def GoMap.range {α : Type} (it : Iter) (s : Site) (m : GoMap α) : List Str := it.ord s m.keys

/-- `for k, v := range m` -/
def GoMap.rangeKV {α : Type} (it : Iter) (s : Site) (m : GoMap α) : List (Str × α) :=
  (m.range it s).filterMap (fun k => (m.get? k).map (fun v => (k, v)))

end Hotswap
