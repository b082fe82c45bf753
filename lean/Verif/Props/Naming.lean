import Verif.Model.Naming
import Verif.Props.Api
import Mathlib.Data.List.Perm.Subperm

/-!
# Copies made by different loads (C60)
-/

namespace Hotswap

theorem decDigit_inj {a b : Nat} (ha : a < 10) (hb : b < 10) (h : decDigit a = decDigit b) : a = b := by
  have : ∀ a b : Fin 10, decDigit a = decDigit b → a = b := by decide
  exact Fin.mk.inj (this ⟨a, ha⟩ ⟨b, hb⟩ h)

theorem decDigit_mem {d : Nat} (h : d < 10) : decDigit d ∈ "0123456789".toList := by
  have : ∀ d : Fin 10, decDigit d ∈ "0123456789".toList := by decide
  exact this ⟨d, h⟩

theorem pad2_inj {a b : Nat} (ha : a < 100) (hb : b < 100) (h : pad2 a = pad2 b) : a = b := by
  unfold pad2 at h
  injection h with h1 h2
  injection h2 with h2
  have := decDigit_inj (by omega) (by omega) h1
  have := decDigit_inj (by omega) (by omega) h2
  omega

theorem pad2_length (a : Nat) : (pad2 a).length = 2 := rfl

theorem pad2_mem {n : Nat} {c : Char} (h : c ∈ pad2 n) : c ∈ "0123456789".toList := by
  unfold pad2 at h
  simp only [List.mem_cons, List.not_mem_nil, or_false] at h
  rcases h with rfl | rfl
  · exact decDigit_mem (by omega)
  · exact decDigit_mem (by omega)

theorem decDigits_mem {n : Nat} {c : Char} (h : c ∈ decDigits n) : c ∈ "0123456789".toList := by
  induction n using Nat.strongRecOn with
  | _ n ih =>
    rw [decDigits] at h
    split at h
    · rename_i hn; simp only [List.mem_singleton] at h; subst h; exact decDigit_mem hn
    · rename_i hn
      rcases List.mem_append.mp h with h | h
      · exact ih (n / 10) (by omega) h
      · simp only [List.mem_singleton] at h; subst h; exact decDigit_mem (Nat.mod_lt _ (by omega))

theorem decDigits_ne (n : Nat) : decDigits n ≠ [] := by
  rw [decDigits]; split <;> simp

theorem decDigits_inj {n m : Nat} (h : decDigits n = decDigits m) : n = m := by
  induction n using Nat.strongRecOn generalizing m with
  | _ n ih =>
    rw [decDigits, decDigits.eq_def m] at h
    split at h <;> split at h
    · rename_i h1 h2; injection h with h; exact decDigit_inj h1 h2 h
    · rename_i h1 h2
      have := congrArg List.length h
      have h3 := List.length_pos_iff.mpr (decDigits_ne (m / 10))
      rw [List.length_append, List.length_singleton, List.length_singleton] at this; omega
    · rename_i h1 h2
      have := congrArg List.length h
      have h3 := List.length_pos_iff.mpr (decDigits_ne (n / 10))
      rw [List.length_append, List.length_singleton, List.length_singleton] at this; omega
    · rename_i h1 h2
      obtain ⟨h3, h4⟩ := List.append_inj' h rfl
      injection h4 with h4
      have := ih (n / 10) (by omega) h3
      have := decDigit_inj (Nat.mod_lt _ (by omega)) (Nat.mod_lt _ (by omega)) h4
      omega

theorem formatCompact_length (t : Civil) : (formatCompact t).length = 12 := rfl

theorem formatCompact_mem {t : Civil} {c : Char} (h : c ∈ formatCompact t) : c ∈ "0123456789".toList := by
  unfold formatCompact at h
  simp only [List.mem_append] at h
  rcases h with ((((h | h) | h) | h) | h) | h <;> exact pad2_mem h

/-- The two readings agree, but for the century. -/
structure SameStamp (t t' : Civil) : Prop where
  year : t.year % 100 = t'.year % 100
  month : t.month = t'.month
  day : t.day = t'.day
  hour : t.hour = t'.hour
  min : t.min = t'.min
  sec : t.sec = t'.sec

theorem formatCompact_inj {t t' : Civil} (ht : t.Valid) (ht' : t'.Valid) : formatCompact t = formatCompact t' ↔ SameStamp t t' := by
  constructor
  · intro h
    unfold formatCompact at h
    obtain ⟨h, h6⟩ := List.append_inj' h rfl
    obtain ⟨h, h5⟩ := List.append_inj' h rfl
    obtain ⟨h, h4⟩ := List.append_inj' h rfl
    obtain ⟨h, h3⟩ := List.append_inj' h rfl
    obtain ⟨h1, h2⟩ := List.append_inj' h rfl
    have := ht.month; have := ht'.month; have := ht.day; have := ht'.day; have := ht.hour; have := ht'.hour; have := ht.min; have := ht'.min; have := ht.sec; have := ht'.sec
    exact ⟨pad2_inj (by omega) (by omega) h1, pad2_inj (by omega) (by omega) h2, pad2_inj (by omega) (by omega) h3, pad2_inj (by omega) (by omega) h4,
      pad2_inj (by omega) (by omega) h5, pad2_inj (by omega) (by omega) h6⟩
  · rintro ⟨h1, h2, h3, h4, h5, h6⟩
    unfold formatCompact
    rw [h1, h2, h3, h4, h5, h6]

theorem slash_not_copyName {n : Str} (h : '/' ∉ n) (s : Nat) : '/' ∉ copyName n s := by
  unfold copyName sharpHex8
  simp only [List.mem_append, List.mem_cons, List.mem_replicate, not_or]
  refine ⟨⟨h, by decide, by rintro ⟨_, h⟩; exact absurd h (by decide), by decide, by decide, ?_⟩, ext_no_slash⟩
  intro h
  exact absurd (mem_hexDigits h) (by decide)

theorem slash_not_dirName (t : Civil) (pid : Nat) : '/' ∉ copyDirName t pid := by
  unfold copyDirName
  simp only [List.mem_append, List.mem_cons, not_or]
  exact ⟨fun h => absurd (formatCompact_mem h) (by decide), by decide, fun h => absurd (decDigits_mem h) (by decide)⟩

/-- A clean absolute directory: the root, or a path that does not end with a slash. -/
def CleanDir (dir : Str) : Prop := dir = ['/'] ∨ (dir ≠ [] ∧ dir.getLast? ≠ some '/')

theorem joinPath_clean {d n : Str} (hn : n ≠ []) (hs : '/' ∉ n) : CleanDir (joinPath d n) := by
  right
  have key : ∀ x : Str, x ++ n ≠ [] ∧ (x ++ n).getLast? ≠ some '/' := by
    intro x
    refine ⟨by simp [hn], ?_⟩
    rw [List.getLast?_append_of_ne_nil _ hn]
    exact fun h => hs (List.mem_of_getLast? h)
  unfold joinPath
  split
  · exact key ['/']
  · have := key (d ++ ['/'])
    simpa using this

theorem joinPath_inj {d d' a b : Str} (hd : CleanDir d) (hd' : CleanDir d') (ha : '/' ∉ a) (hb : '/' ∉ b) (h : joinPath d a = joinPath d' b) : d = d' ∧ a = b := by
  have h1 := dir_joinPath ha hd
  rw [h, dir_joinPath hb hd'] at h1
  subst h1
  exact ⟨rfl, joinPath_right_inj h⟩

/-- **C60.** Two loads (at local times `now` and `now'`, by processes `pid` and `pid'`) put the copies of the plugin files `dir/x.so` and `dir'/y.so` at the same path if and only if directory, plugin name,
checksum (`s`, `s'`: xxHash32 of the SHA-1 of the contents), process number and the time in whole seconds (two-digit year) agree. Whatever differs in checksum, name, directory, process or second never
overwrites a copy that an earlier load has opened. -/
theorem C60_copies_of_loads {now now' : Civil} (hv : now.Valid) (hv' : now'.Valid) (pid pid' : Nat) (dir dir' x y : Str) (s s' : Nat) (hd : CleanDir dir) (hd' : CleanDir dir')
    (hx : '/' ∉ x) (hy : '/' ∉ y) :
    runtimeCopy now pid (joinPath dir (x ++ fileNameExt)) s = runtimeCopy now' pid' (joinPath dir' (y ++ fileNameExt)) s' ↔
      dir = dir' ∧ x = y ∧ s = s' ∧ pid = pid' ∧ SameStamp now now' := by
  have hx' : '/' ∉ x ++ fileNameExt := by simp [hx, ext_no_slash]
  have hy' : '/' ∉ y ++ fileNameExt := by simp [hy, ext_no_slash]
  unfold runtimeCopy copyPath
  rw [dir_joinPath hx' hd, dir_joinPath hy' hd', C52_name_round_trip dir x hx, C52_name_round_trip dir' y hy]
  constructor
  · intro h
    have hdn : ∀ t p, copyDirName t p ≠ [] := by intro t p; unfold copyDirName; simp
    have htmp : '/' ∉ "tmp".toList := by decide
    obtain ⟨h1, h2⟩ := joinPath_inj (joinPath_clean (hdn _ _) (slash_not_dirName _ _)) (joinPath_clean (hdn _ _) (slash_not_dirName _ _)) (slash_not_copyName hx s) (slash_not_copyName hy s') h
    obtain ⟨h3, h4⟩ := joinPath_inj (joinPath_clean (by decide) htmp) (joinPath_clean (by decide) htmp) (slash_not_dirName _ _) (slash_not_dirName _ _) h1
    obtain ⟨h5, _⟩ := joinPath_inj hd hd' htmp htmp h3
    obtain ⟨h6, h7⟩ := C36_copy_names_distinct _ _ _ _ h2
    unfold copyDirName at h4
    obtain ⟨h8, h9⟩ := List.append_inj h4 (by rw [formatCompact_length, formatCompact_length])
    injection h9 with _ h9
    exact ⟨h5, h6, h7, decDigits_inj h9, (formatCompact_inj hv hv').mp h8⟩
  · rintro ⟨rfl, rfl, rfl, rfl, h⟩
    unfold copyDirName
    rw [(formatCompact_inj hv hv').mpr h]

/-- **C60.** The checksum has 32 bits: of more than 2³² different SHA-1 sums there are always two whose copies, made by one process within one second, have the same path; whatever the checksum function
`sum` is. -/
theorem C60_collisions (sum : Nat → Nat) (hsum : ∀ x, sum x < 2 ^ 32) (now : Civil) (pid : Nat) (file : Str) (shas : List Nat) (hnd : shas.Nodup) (hlen : 2 ^ 32 < shas.length) :
    ∃ a ∈ shas, ∃ b ∈ shas, a ≠ b ∧ runtimeCopy now pid file (sum a) = runtimeCopy now pid file (sum b) := by
  by_contra hno
  have hinj : ∀ a ∈ shas, ∀ b ∈ shas, sum a = sum b → a = b := by
    intro a ha b hb he
    by_contra hne
    exact hno ⟨a, ha, b, hb, hne, by rw [he]⟩
  have hmap : (shas.map sum).Nodup := (List.nodup_map_iff_inj_on hnd).mpr hinj
  have hsub : shas.map sum ⊆ List.range (2 ^ 32) := by
    intro x hx
    obtain ⟨a, _, rfl⟩ := List.mem_map.mp hx
    exact List.mem_range.mpr (hsum a)
  have := (List.subperm_of_subset hmap hsub).length_le
  rw [List.length_map, List.length_range] at this
  omega

/-- The hypotheses can be met: there are 2¹⁶⁰ SHA-1 sums. -/
example : (List.range (2 ^ 32 + 1)).Nodup ∧ 2 ^ 32 < (List.range (2 ^ 32 + 1)).length ∧ 2 ^ 32 + 1 ≤ 2 ^ 160 := ⟨List.nodup_range, by rw [List.length_range]; omega, by omega⟩

/-- A time that satisfies the hypotheses. -/
example : Civil.Valid ⟨2024, 2, 29, 23, 59, 59⟩ := ⟨by decide, by decide, by decide, by decide, by decide⟩

/-- The first and the last second of a year. -/
example : Civil.Valid ⟨2024, 1, 1, 0, 0, 0⟩ ∧ Civil.Valid ⟨2024, 12, 31, 23, 59, 59⟩ :=
  ⟨⟨by decide, by decide, by decide, by decide, by decide⟩, ⟨by decide, by decide, by decide, by decide, by decide⟩⟩

/-- What a path looks like. -/
example : runtimeCopy ⟨2024, 2, 29, 23, 59, 59⟩ 42 "/p/base.so".toList 11 = "/p/tmp/240229235959-42/base-     0xb.so".toList := by
  have h1 : hexDigits 11 = "b".toList := by rw [hexDigits]; simp; decide
  have h2 : decDigits 42 = "42".toList := by rw [decDigits]; simp; rw [decDigits]; simp; decide
  unfold runtimeCopy copyPath copyName sharpHex8 copyDirName
  rw [h1, h2]
  decide +kernel

end Hotswap
