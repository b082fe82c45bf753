import Verif.Model.Cli.Copy
import Batteries.Data.List.Perm

/-!
# The parallel copy (C43)
-/

namespace Hotswap.Cli.Copy

/-! ### Sums over the workers -/

def sumW (g : Worker → Nat) (ws : List Worker) : Nat := (ws.map g).sum

theorem sumW_set (g : Worker → Nat) (ws : List Worker) (i : Nat) (w w' : Worker) (h : ws[i]? = some w) :
    sumW g (ws.set i w') + g w = sumW g ws + g w' := by
  unfold sumW
  induction ws generalizing i with
  | nil => simp at h
  | cons a ws ih =>
    cases i with
    | zero => simp at h; subst h; simp only [List.set_cons_zero, List.map_cons, List.sum_cons]; omega
    | succ i =>
      simp only [List.getElem?_cons_succ] at h
      simp only [List.set_cons_succ, List.map_cons, List.sum_cons]
      have := ih i h
      omega

theorem sumW_done (g : Worker → Nat) (h0 : g .done = 0) (ws : List Worker) (h : ∀ w ∈ ws, w = .done) : sumW g ws = 0 := by
  unfold sumW
  induction ws with
  | nil => rfl
  | cons a ws ih =>
    rw [List.map_cons, List.sum_cons, ih (fun w hw => h w (List.mem_cons_of_mem _ hw)), h a List.mem_cons_self, h0]

theorem sumW_ge (g : Worker → Nat) (ws : List Worker) (i : Nat) (w : Worker) (h : ws[i]? = some w) : g w ≤ sumW g ws := by
  have := sumW_set g ws i w w h
  unfold sumW at *
  induction ws generalizing i with
  | nil => simp at h
  | cons a ws ih =>
    cases i with
    | zero => simp at h; subst h; simp
    | succ i =>
      simp only [List.getElem?_cons_succ] at h
      have := ih i h (sumW_set g ws i w w h)
      simp only [List.map_cons, List.sum_cons]; omega

theorem sumW_replicate (g : Worker → Nat) (n : Nat) (w : Worker) : sumW g (List.replicate n w) = n * g w := by
  unfold sumW
  induction n with
  | zero => simp
  | succ n ih => rw [List.replicate_succ, List.map_cons, List.sum_cons, ih, Nat.succ_mul]; omega

/-- Does the worker hold this file? -/
def holds (f : Str) : Worker → Nat
  | .copying g => if g = f then 1 else 0
  | .reporting g => if g = f then 1 else 0
  | _ => 0

/-- Is the worker about to report this file? -/
def reports (f : Str) : Worker → Nat
  | .reporting g => if g = f then 1 else 0
  | _ => 0

/-- Has the worker not sent an error yet and may it still do so? -/
def unsent : Worker → Nat
  | .idle => 1
  | .copying _ => 1
  | .reporting _ => 1
  | _ => 0

/-- Is the worker between sending its error and closing `abort`? -/
def late : Worker → Nat
  | .checking => 1
  | .closing => 1
  | _ => 0

/-- Upper bound for the steps the worker still takes without a new file. -/
def weight : Worker → Nat
  | .idle => 3
  | .copying _ => 4
  | .reporting _ => 3
  | .checking => 2
  | .closing => 1
  | .done => 0

/-! ### The invariant -/

structure Inv (files : List Str) (burst : Nat) (s : St) : Prop where
  length : s.workers.length = burst
  files : ∀ f, s.pending.count f + sumW (holds f) s.workers + s.copied.count f + s.chErr.count f = files.count f
  room : sumW unsent s.workers + s.chErr.length ≤ s.workers.length
  late : s.abort.toNat + sumW late s.workers ≤ s.chErr.length
  failed : ∀ f, s.failed.count f = s.chErr.count f + sumW (reports f) s.workers
  crash : s.crashed = true → 2 ≤ s.chErr.length
  quit : .done ∈ s.workers → s.interrupt = true ∨ s.chErr ≠ [] ∨ s.pending = []

theorem Inv.init (files : List Str) (burst : Nat) (b : Bool) : Inv files burst (St.init files burst b) := by
  refine ⟨by simp [St.init], ?_, ?_, ?_, ?_, by simp [St.init], ?_⟩
  · intro f; simp [St.init, sumW_replicate, holds]
  · simp [St.init, sumW_replicate, unsent]
  · simp [St.init, sumW_replicate, Copy.late]
  · intro f; simp [St.init, sumW_replicate, reports]
  · intro h; simp [St.init, List.mem_replicate] at h

theorem mem_set {ws : List Worker} {i : Nat} {w x : Worker} (h : x ∈ ws.set i w) : x = w ∨ x ∈ ws := by
  rcases List.mem_or_eq_of_mem_set h with h | h
  · exact .inr h
  · exact .inl h

theorem Inv.step {files : List Str} {burst : Nat} {s t : St} (h : Inv files burst s) (st : Step s t) : Inv files burst t := by
  have hh := fun (i : Nat) (w w' : Worker) (e : s.workers[i]? = some w) (f : Str) => sumW_set (holds f) s.workers i w w' e
  have hu := fun (i : Nat) (w w' : Worker) (e : s.workers[i]? = some w) => sumW_set unsent s.workers i w w' e
  have hl := fun (i : Nat) (w w' : Worker) (e : s.workers[i]? = some w) => sumW_set Copy.late s.workers i w w' e
  have hr := fun (i : Nat) (w w' : Worker) (e : s.workers[i]? = some w) (f : Str) => sumW_set (reports f) s.workers i w w' e
  have habort : s.abort = true → s.chErr ≠ [] := by
    intro ha hc
    have := h.late
    rw [ha, hc] at this
    simp at this
  cases st with
  | @interrupted i hc hw hi =>
    refine ⟨by simpa [St.move] using h.length, ?_, ?_, ?_, ?_, h.crash, fun _ => .inl hi⟩
    · intro f; have h1 := h.files f; have h2 := hh i _ .done hw f; simp only [holds, St.move] at *; omega
    · have h1 := h.room; have h2 := hu i _ .done hw; simp only [unsent, St.move, List.length_set] at *; omega
    · have h1 := h.late; have h2 := hl i _ .done hw; simp only [Copy.late, St.move] at *; omega
    · intro f; have h1 := h.failed f; have h2 := hr i _ .done hw f; simp only [reports, St.move, List.count_append, List.count_singleton, beq_iff_eq] at *; omega
  | @aborted i hc hw ha =>
    refine ⟨by simpa [St.move] using h.length, ?_, ?_, ?_, ?_, h.crash, fun _ => .inr (.inl (habort ha))⟩
    · intro f; have h1 := h.files f; have h2 := hh i _ .done hw f; simp only [holds, St.move] at *; omega
    · have h1 := h.room; have h2 := hu i _ .done hw; simp only [unsent, St.move, List.length_set] at *; omega
    · have h1 := h.late; have h2 := hl i _ .done hw; simp only [Copy.late, St.move] at *; omega
    · intro f; have h1 := h.failed f; have h2 := hr i _ .done hw f; simp only [reports, St.move, List.count_append, List.count_singleton, beq_iff_eq] at *; omega
  | @take i f0 r hc hw hp =>
    refine ⟨by simpa [St.move] using h.length, ?_, ?_, ?_, ?_, h.crash, ?_⟩
    · intro f; have h1 := h.files f; have h2 := hh i _ (.copying f0) hw f
      rw [hp, List.count_cons] at h1
      simp only [holds, St.move, beq_iff_eq] at *; omega
    · have h1 := h.room; have h2 := hu i _ (.copying f0) hw; simp only [unsent, St.move, List.length_set] at *; omega
    · have h1 := h.late; have h2 := hl i _ (.copying f0) hw; simp only [Copy.late, St.move] at *; omega
    · intro f; have h1 := h.failed f; have h2 := hr i _ (.copying f0) hw f; simp only [reports, St.move, List.count_append, List.count_singleton, beq_iff_eq] at *; omega
    · intro hm
      rcases mem_set hm with e | hm
      · cases e
      · rcases h.quit hm with q | q | q
        · exact .inl q
        · exact .inr (.inl q)
        · rw [hp] at q; cases q
  | @empty i hc hw hi ha hp =>
    refine ⟨by simpa [St.move] using h.length, ?_, ?_, ?_, ?_, h.crash, fun _ => .inr (.inr hp)⟩
    · intro f; have h1 := h.files f; have h2 := hh i _ .done hw f; simp only [holds, St.move] at *; omega
    · have h1 := h.room; have h2 := hu i _ .done hw; simp only [unsent, St.move, List.length_set] at *; omega
    · have h1 := h.late; have h2 := hl i _ .done hw; simp only [Copy.late, St.move] at *; omega
    · intro f; have h1 := h.failed f; have h2 := hr i _ .done hw f; simp only [reports, St.move, List.count_append, List.count_singleton, beq_iff_eq] at *; omega
  | @copyOk i f0 hc hw =>
    refine ⟨by simpa [St.move] using h.length, ?_, ?_, ?_, ?_, h.crash, ?_⟩
    · intro f; have h1 := h.files f; have h2 := hh i _ .idle hw f
      simp only [holds, St.move, List.count_append, List.count_singleton, beq_iff_eq] at *; omega
    · have h1 := h.room; have h2 := hu i _ .idle hw; simp only [unsent, St.move, List.length_set] at *; omega
    · have h1 := h.late; have h2 := hl i _ .idle hw; simp only [Copy.late, St.move] at *; omega
    · intro f; have h1 := h.failed f; have h2 := hr i _ .idle hw f; simp only [reports, St.move, List.count_append, List.count_singleton, beq_iff_eq] at *; omega
    · intro hm
      rcases mem_set hm with e | hm
      · cases e
      · exact h.quit hm
  | @copyFail i f0 hc hw =>
    refine ⟨by simpa [St.move] using h.length, ?_, ?_, ?_, ?_, h.crash, ?_⟩
    · intro f; have h1 := h.files f; have h2 := hh i _ (.reporting f0) hw f
      simp only [holds, St.move] at *; omega
    · have h1 := h.room; have h2 := hu i _ (.reporting f0) hw; simp only [unsent, St.move, List.length_set] at *; omega
    · have h1 := h.late; have h2 := hl i _ (.reporting f0) hw; simp only [Copy.late, St.move] at *; omega
    · intro f; have h1 := h.failed f; have h2 := hr i _ (.reporting f0) hw f; simp only [reports, St.move, List.count_append, List.count_singleton, beq_iff_eq] at *; omega
    · intro hm
      rcases mem_set hm with e | hm
      · cases e
      · exact h.quit hm
  | @send i f0 hc hw hlt =>
    refine ⟨by simpa [St.move] using h.length, ?_, ?_, ?_, ?_, ?_, fun _ => .inr (.inl (by simp))⟩
    · intro f; have h1 := h.files f; have h2 := hh i _ .checking hw f
      simp only [holds, St.move, List.count_append, List.count_singleton, beq_iff_eq] at *; omega
    · have h1 := h.room; have h2 := hu i _ .checking hw; simp only [unsent, St.move, List.length_set, List.length_append, List.length_singleton] at *; omega
    · have h1 := h.late; have h2 := hl i _ .checking hw; simp only [Copy.late, St.move, List.length_append, List.length_singleton] at *; omega
    · intro f; have h1 := h.failed f; have h2 := hr i _ .checking hw f; simp only [reports, St.move, List.count_append, List.count_singleton, beq_iff_eq] at *; omega
    · intro hcr; rw [show ({ s.move i .checking with chErr := s.chErr ++ [f0] } : St).crashed = s.crashed from rfl, hc] at hcr; cases hcr
  | @sawAbort i hc hw ha =>
    refine ⟨by simpa [St.move] using h.length, ?_, ?_, ?_, ?_, h.crash, fun _ => .inr (.inl (habort ha))⟩
    · intro f; have h1 := h.files f; have h2 := hh i _ .done hw f; simp only [holds, St.move] at *; omega
    · have h1 := h.room; have h2 := hu i _ .done hw; simp only [unsent, St.move, List.length_set] at *; omega
    · have h1 := h.late; have h2 := hl i _ .done hw; simp only [Copy.late, St.move] at *; omega
    · intro f; have h1 := h.failed f; have h2 := hr i _ .done hw f; simp only [reports, St.move, List.count_append, List.count_singleton, beq_iff_eq] at *; omega
  | @noAbort i hc hw ha =>
    refine ⟨by simpa [St.move] using h.length, ?_, ?_, ?_, ?_, h.crash, ?_⟩
    · intro f; have h1 := h.files f; have h2 := hh i _ .closing hw f; simp only [holds, St.move] at *; omega
    · have h1 := h.room; have h2 := hu i _ .closing hw; simp only [unsent, St.move, List.length_set] at *; omega
    · have h1 := h.late; have h2 := hl i _ .closing hw; simp only [Copy.late, St.move] at *; omega
    · intro f; have h1 := h.failed f; have h2 := hr i _ .closing hw f; simp only [reports, St.move, List.count_append, List.count_singleton, beq_iff_eq] at *; omega
    · intro hm
      rcases mem_set hm with e | hm
      · cases e
      · exact h.quit hm
  | @close i hc hw ha =>
    have h1 := h.late
    have h2 := hl i _ .done hw
    have hne : 1 ≤ s.chErr.length := by
      have := sumW_ge Copy.late s.workers i _ hw; simp only [Copy.late] at *; omega
    refine ⟨by simpa [St.move] using h.length, ?_, ?_, ?_, ?_, h.crash, fun _ => .inr (.inl ?_)⟩
    · intro f; have h1 := h.files f; have h2 := hh i _ .done hw f; simp only [holds, St.move] at *; omega
    · have h1 := h.room; have h2 := hu i _ .done hw; simp only [unsent, St.move, List.length_set] at *; omega
    · rw [ha] at h1; simp only [Copy.late, St.move, Bool.toNat_true, Bool.toNat_false] at *; omega
    · intro f; have h1 := h.failed f; have h2 := hr i _ .done hw f; simp only [reports, St.move] at *; omega
    · intro e
      have e' : s.chErr = [] := e
      rw [e'] at hne; simp at hne
  | @doubleClose i hc hw ha =>
    refine ⟨h.length, h.files, h.room, h.late, h.failed, fun _ => ?_, h.quit⟩
    have h1 := h.late
    have := sumW_ge Copy.late s.workers i _ hw
    rw [ha] at h1
    simp only [Copy.late, Bool.toNat_true] at *; omega

theorem Inv.env {files : List Str} {burst : Nat} {s t : St} (h : Inv files burst s) (st : Env s t) : Inv files burst t := by
  cases st with
  | sigint hi => exact ⟨h.length, h.files, h.room, h.late, h.failed, h.crash, fun _ => .inl rfl⟩

theorem Run.inv {files : List Str} {burst n : Nat} {s : St} (r : Run files burst n s) : Inv files burst s := by
  induction r with
  | init b => exact Inv.init files burst b
  | step _ st ih => exact ih.step st
  | env _ st ih => exact ih.env st

/-! ### Properties -/

/-- **C43.** If the function returns normally (all workers have returned, no error) and was not interrupted, every file has been
copied, exactly as often as it is in the list, for every schedule and every number of workers but zero. -/
theorem C43_all_copied {files : List Str} {burst n : Nat} {s : St} (r : Run files burst n s) (hb : 0 < burst)
    (hf : s.finished) (hint : s.interrupt = false) (hout : s.outcome = none) : s.copied.Perm files := by
  have h := r.inv
  have hc : s.chErr = [] := by
    unfold St.outcome at hout; exact List.head?_eq_none_iff.mp hout
  have hd : .done ∈ s.workers := by
    have hl := h.length
    cases hw : s.workers with
    | nil => rw [hw] at hl; simp at hl; omega
    | cons a ws => rw [hf.2 a (by rw [hw]; simp)]; simp
  have hp : s.pending = [] := by
    rcases h.quit hd with q | q | q
    · rw [hint] at q; cases q
    · exact absurd hc q
    · exact q
  rw [List.perm_iff_count]
  intro f
  have := h.files f
  rw [hc, hp, sumW_done (holds f) rfl _ hf.2] at this
  simpa using this

/-- **C43.** At every moment of every run no file has been copied more often than it is in the list, and whatever was copied or failed is
in the list. -/
theorem C43_at_most_once {files : List Str} {burst n : Nat} {s : St} (r : Run files burst n s) (f : Str) :
    s.copied.count f + s.chErr.count f ≤ files.count f := by
  have := r.inv.files f; omega

/-- **C43.** No worker ever blocks: in every state the program can reach without crashing, every worker that has not returned can take a step
(one that changes that very worker, or crashes the program). -/
theorem C43_never_blocks {files : List Str} {burst n : Nat} {s : St} (r : Run files burst n s) (hc : s.crashed = false)
    (i : Nat) (w : Worker) (hw : s.workers[i]? = some w) (hd : w ≠ .done) : ∃ t, Step s t ∧ (t.workers[i]? ≠ some w ∨ t.crashed = true) := by
  have h := r.inv
  have hlt : i < s.workers.length := (List.getElem?_eq_some_iff.mp hw).1
  cases w with
  | idle =>
    cases hi : s.interrupt with
    | true => exact ⟨_, .interrupted hc hw hi, .inl (by simp [St.move, hlt])⟩
    | false =>
      cases ha : s.abort with
      | true => exact ⟨_, .aborted hc hw ha, .inl (by simp [St.move, hlt])⟩
      | false =>
        cases hp : s.pending with
        | nil => exact ⟨_, .empty hc hw hi ha hp, .inl (by simp [St.move, hlt])⟩
        | cons f r => exact ⟨_, .take hc hw hp, .inl (by simp [St.move, hlt])⟩
  | copying f => exact ⟨_, .copyOk hc hw, .inl (by simp [St.move, hlt])⟩
  | reporting f =>
    refine ⟨_, .send hc hw ?_, .inl (by simp [St.move, hlt])⟩
    have h1 := h.room
    have h2 := sumW_ge unsent s.workers i _ hw
    simp only [unsent] at h2; omega
  | checking =>
    cases ha : s.abort with
    | true => exact ⟨_, .sawAbort hc hw ha, .inl (by simp [St.move, hlt])⟩
    | false => exact ⟨_, .noAbort hc hw ha, .inl (by simp [St.move, hlt])⟩
  | closing =>
    cases ha : s.abort with
    | true => exact ⟨_, .doubleClose hc hw ha, .inr rfl⟩
    | false => exact ⟨_, .close hc hw ha, .inl (by simp [St.move, hlt])⟩
  | done => exact absurd rfl hd

/-- The measure that every step decreases. -/
def measure (s : St) : Nat := 2 * s.pending.length + sumW weight s.workers + (1 - s.crashed.toNat)

theorem Step.measure_lt {s t : St} (st : Step s t) : measure t < measure s := by
  have hw' := fun (i : Nat) (w w' : Worker) (e : s.workers[i]? = some w) => sumW_set weight s.workers i w w' e
  cases st with
  | @interrupted i hc hw hi => have := hw' i _ .done hw; simp only [measure, St.move, weight] at *; omega
  | @aborted i hc hw hi => have := hw' i _ .done hw; simp only [measure, St.move, weight] at *; omega
  | @take i f r hc hw hp => have := hw' i _ (.copying f) hw; simp only [measure, St.move, weight, hp, List.length_cons] at *; omega
  | @empty i hc hw hi ha hp => have := hw' i _ .done hw; simp only [measure, St.move, weight] at *; omega
  | @copyOk i f hc hw => have := hw' i _ .idle hw; simp only [measure, St.move, weight] at *; omega
  | @copyFail i f hc hw => have := hw' i _ (.reporting f) hw; simp only [measure, St.move, weight] at *; omega
  | @send i f hc hw hl => have := hw' i _ .checking hw; simp only [measure, St.move, weight] at *; omega
  | @sawAbort i hc hw ha => have := hw' i _ .done hw; simp only [measure, St.move, weight] at *; omega
  | @noAbort i hc hw ha => have := hw' i _ .closing hw; simp only [measure, St.move, weight] at *; omega
  | @close i hc hw ha => have := hw' i _ .done hw; simp only [measure, St.move, weight] at *; omega
  | @doubleClose i hc hw ha => simp only [measure, hc, Bool.toNat_true, Bool.toNat_false]; omega

/-- **C43.** The pool terminates under every schedule: however the workers are interleaved, they take at most `2·files + 3·workers + 1` steps
in all; with `C43_never_blocks`, `wg.Wait()` returns. -/
theorem C43_terminates {files : List Str} {burst n : Nat} {s : St} (r : Run files burst n s) : n ≤ 2 * files.length + 3 * burst + 1 := by
  suffices h : n + measure s ≤ 2 * files.length + 3 * burst + 1 by omega
  induction r with
  | init b => simp [measure, St.init, sumW_replicate, weight]; omega
  | step _ st ih => have := st.measure_lt; omega
  | env _ st ih =>
    cases st with
    | sigint hi => exact ih

/-- **C43.** A failed copy is never taken for success: when the workers have returned, the function returns normally if and only if no copy failed, and
otherwise it panics with the error of a file whose copy failed. -/
theorem C43_error_reported {files : List Str} {burst n : Nat} {s : St} (r : Run files burst n s) (hf : s.finished) :
    (s.outcome = none ↔ s.failed = []) ∧ ∀ f, s.outcome = some f → f ∈ s.failed := by
  have h := r.inv
  have hc : ∀ f, s.failed.count f = s.chErr.count f := by
    intro f
    have := h.failed f
    rwa [sumW_done (reports f) rfl _ hf.2, Nat.add_zero] at this
  have hp : s.failed.Perm s.chErr := List.perm_iff_count.mpr hc
  unfold St.outcome
  constructor
  · rw [List.head?_eq_none_iff]
    constructor
    · intro e; rw [e] at hp; exact hp.eq_nil
    · intro e; rw [e] at hp; exact hp.symm.eq_nil
  · intro f hfm
    exact hp.symm.subset (List.mem_of_mem_head? hfm)

/-- **C43.** The program crashes (a second `close` of the same channel) only if at least two copies failed. So with at most one failing file, the pool always
ends orderly. -/
theorem C43_crash_needs_two_failures {files : List Str} {burst n : Nat} {s : St} (r : Run files burst n s) (hc : s.crashed = true) :
    2 ≤ s.failed.length := by
  have h := r.inv
  have h1 := h.crash hc
  have hsub : ∀ f, s.chErr.count f ≤ s.failed.count f := by intro f; have := h.failed f; omega
  have := (List.subperm_ext_iff.mpr (fun f _ => hsub f)).length_le
  omega

/-- **C43, violated.** For every list of at least two files and every number of workers from two on (the code uses five per CPU), there is a schedule in which two copies
fail and the program crashes by closing the channel twice instead of reporting an error. -/
theorem C43_violated_double_close (a b : Str) (rest : List Str) (k : Nat) : ∃ n s, Run (a :: b :: rest) (k + 2) n s ∧ s.crashed = true := by
  have r0 := Run.init (files := a :: b :: rest) (burst := k + 2) false
  have r1 := r0.step (.take (i := 0) rfl rfl rfl)
  have r2 := r1.step (.take (i := 1) rfl rfl rfl)
  have r3 := r2.step (.copyFail (i := 0) rfl rfl)
  have r4 := r3.step (.copyFail (i := 1) rfl rfl)
  have r5 := r4.step (.send (i := 0) rfl rfl (by simp [St.init, St.move]))
  have r6 := r5.step (.send (i := 1) rfl rfl (by simp [St.init, St.move]))
  have r7 := r6.step (.noAbort (i := 0) rfl rfl rfl)
  have r8 := r7.step (.noAbort (i := 1) rfl rfl rfl)
  have r9 := r8.step (.close (i := 0) rfl rfl rfl)
  exact ⟨_, _, r9.step (.doubleClose (i := 1) rfl rfl rfl), rfl⟩

/-- **C43, the restriction is needed.** After SIGINT the function may return normally although not every file was copied. -/
theorem C43_interrupt_incomplete : ∃ n s, Run ["a".toList, "b".toList] 1 n s ∧ s.finished ∧ s.outcome = none ∧ s.interrupt = true ∧
    s.copied = ["a".toList] := by
  have r0 := Run.init (files := ["a".toList, "b".toList]) (burst := 1) false
  have r1 := r0.step (.take (i := 0) rfl rfl rfl)
  have r2 := r1.env (.sigint rfl)
  have r3 := r2.step (.copyOk (i := 0) rfl rfl)
  have r4 := r3.step (.interrupted (i := 0) rfl rfl rfl)
  exact ⟨_, _, r4, ⟨rfl, by decide⟩, rfl, rfl, rfl⟩

/-! ### A complete run -/

/-- Two workers copy three files. -/
example : ∃ n s, Run ["a".toList, "b".toList, "c".toList] 2 n s ∧ s.finished ∧ s.interrupt = false ∧ s.outcome = none ∧
    s.copied = ["b".toList, "a".toList, "c".toList] := by
  have r0 := Run.init (files := ["a".toList, "b".toList, "c".toList]) (burst := 2) false
  have r1 := r0.step (.take (i := 0) rfl rfl rfl)
  have r2 := r1.step (.take (i := 1) rfl rfl rfl)
  have r3 := r2.step (.copyOk (i := 1) rfl rfl)
  have r4 := r3.step (.copyOk (i := 0) rfl rfl)
  have r5 := r4.step (.take (i := 1) rfl rfl rfl)
  have r6 := r5.step (.empty (i := 0) rfl rfl rfl rfl rfl)
  have r7 := r6.step (.copyOk (i := 1) rfl rfl)
  have r8 := r7.step (.empty (i := 1) rfl rfl rfl rfl rfl)
  exact ⟨_, _, r8, ⟨rfl, by decide⟩, rfl, rfl, rfl⟩

end Hotswap.Cli.Copy
