import Verif.Proofs.Inherit

set_option autoImplicit false

/-!
# C119: mutexes and the priorities they lend
-/

namespace Verif.Inherit

open Verif.Ready (CanRun Right)

variable {limited : Nat → Bool} {s : St}

theorem j_run {R : Nat → Prop} (hlr : ∀ m, limited m = true → R m)
    (hone : ∀ a b, limited a = true → R b → b = a) : ∀ (es : List Ev) {s : St} (_ : J limited R s),
    ∃ s', run limited s es = .ok s' ∧ J limited R s'
  | [], s, h => ⟨s, rfl, h⟩
  | e :: es, s, h => by
    obtain ⟨s1, e1, h1⟩ := h.step hlr e (fun m _ hs m' hR => hone m m' (h.stale hs) hR)
    obtain ⟨s2, e2, h2⟩ := j_run hlr hone es h1
    exact ⟨s2, by rw [Inherit.run, e1]; exact e2, h2⟩

theorem j_run_orderly : ∀ (es : List Ev) {s : St} (_ : J limited (fun _ => True) s) (_ : NoStale limited s es),
    ∃ s', run limited s es = .ok s' ∧ J limited (fun _ => True) s'
  | [], s, h, _ => ⟨s, rfl, h⟩
  | e :: es, s, h, hn => by
    obtain ⟨s1, e1, h1⟩ := h.step (fun _ _ => trivial) e (fun m he hs => absurd hs (hn.1 m he))
    obtain ⟨s2, e2, h2⟩ := j_run_orderly es h1 (hn.2 s1 e1)
    exact ⟨s2, by rw [Inherit.run, e1]; exact e2, h2⟩

theorem Reached.j (ho : OneLimited limited) (h : Reached limited s) : J limited (fun m => limited m = true) s := by
  obtain ⟨junk, ts, es, hr⟩ := h
  obtain ⟨s', e, h'⟩ := j_run (fun _ h => h) (fun a b ha hb => ho b a hb ha) es (J.start junk ts)
  rw [e] at hr
  cases hr
  exact h'

theorem Orderly.j (h : Orderly limited s) : J limited (fun _ => True) s := by
  obtain ⟨junk, ts, es, hr, hn⟩ := h
  obtain ⟨s', e, h'⟩ := j_run_orderly es (J.start junk ts) hn
  rw [e] at hr
  cases hr
  exact h'

/-! ## C119 -/

/-- With at most one mutex that is taken with a time limit, whatever the tasks do: no assertion of
the kernel fails, no list is left in a wrong state; the scheduler is in a state for which C106,
C107 and C111 hold. -/
theorem C119_never_fails (ho : OneLimited limited) (junk : Nat → KList.Addr Ready.LId Nat)
    (ts : List (Nat × Nat)) (es : List Ev) :
    ∃ s, run limited (start junk ts) es = .ok s ∧ Ready.Reached s.k := by
  obtain ⟨s', e, h'⟩ := j_run (R := fun m => limited m = true) (fun _ h => h) (fun a b ha hb => ho b a hb ha) es
    (J.start junk ts)
  exact ⟨s', e, h'.reach⟩

/-- The same with any time limits as long as no mutex is given back in the way `Stale`
describes. -/
theorem C119_never_fails_orderly (junk : Nat → KList.Addr Ready.LId Nat) (ts : List (Nat × Nat)) (es : List Ev)
    (hn : NoStale limited (start junk ts) es) :
    ∃ s, run limited (start junk ts) es = .ok s ∧ Ready.Orderly s.k := by
  obtain ⟨s', e, h'⟩ := j_run_orderly es (J.start junk ts) hn
  exact ⟨s', e, h'.ord (fun _ => trivial)⟩

/-- Only a mutex with time limits can be given back that way. -/
theorem C119_stale_limited (ho : OneLimited limited) (h : Reached limited s) {m : Nat} (hs : Stale s m) :
    limited m = true := (h.j ho).stale hs

/-- A task that holds no mutex runs at its own priority; no task is ever below it. -/
theorem C119_own_priority_back (ho : OneLimited limited) (h : Reached limited s) (t : Nat) :
    s.k.base t ≤ s.k.prio t ∧ (¬ HoldsSome s t → s.k.prio t = s.k.base t) := by
  refine ⟨base_le (h.j ho).reach t, fun hn => (h.j ho).p1 t ?_⟩
  by_contra h0
  exact hn ((h.j ho).holds t h0)

/-- A task that holds a mutex is at least as high as every task that waits for it. -/
theorem C119_holder_high (h : Orderly limited s) {m t w : Nat} (hm : s.holder m = some t) (hw : w ∈ s.waiting m) :
    s.k.prio w ≤ s.k.prio t := (h.j.p2 m t w trivial hm hw).1

/-- For the mutex with time limits this holds after every history. -/
theorem C119_holder_high_limited (ho : OneLimited limited) (h : Reached limited s) {m t w : Nat} (hl : limited m = true)
    (hm : s.holder m = some t) (hw : w ∈ s.waiting m) : s.k.prio w ≤ s.k.prio t := ((h.j ho).p2 m t w hl hm hw).1

/-- If all wait without limit, it holds for every mutex after every history. -/
theorem C119_holder_high_forever (hl : ∀ m, limited m = false) (h : Reached limited s) {m t w : Nat}
    (hm : s.holder m = some t) (hw : w ∈ s.waiting m) : s.k.prio w ≤ s.k.prio t := by
  obtain ⟨junk, ts, es, hr⟩ := h
  obtain ⟨s', e, h'⟩ := j_run (R := fun _ => True) (fun _ _ => trivial)
    (fun a _ (ha : limited a = true) _ => by rw [hl a] at ha; cases ha) es (J.start junk ts)
  rw [e] at hr
  cases hr
  exact (h'.p2 m t w trivial hm hw).1

/-- And not higher than needed: a priority above its own is that of a task that waits for the
mutex, or has stopped waiting and has not yet run since. -/
theorem C119_not_too_high (ho : OneLimited limited) (h : Reached limited s) {t : Nat} (hp : s.k.prio t ≠ s.k.base t) :
    ∃ m w, s.holder m = some t ∧ s.k.prio w = s.k.prio t ∧ (w ∈ s.waiting m ∨ (limited m = true ∧ Late s m w)) := by
  have J0 := h.j ho
  have : s.held t ≠ 0 := fun h0 => hp (J0.p1 t h0)
  obtain ⟨m, hm⟩ := J0.holds t this
  obtain ⟨w, f, a1, a2, a3⟩ := J0.p3 m t hm hp
  refine ⟨m, w, hm, a2, ?_⟩
  rcases a3 with a3 | ⟨a3, a4⟩
  · exact .inl a3
  · refine .inr ⟨a3, ⟨true, f, a1⟩, fun hw => ?_, a4⟩
    exact blocked_not_canRun (J0.blk m w hw) a4

/-- No priority inversion: if no switch is asked for or owed, and the task that holds the mutex can
run, then the running task is not below any task that waits for the mutex. -/
theorem C119_no_inversion (h : Orderly limited s) (hp : s.k.pend = false) (hy : s.k.yieldPending = false)
    {m t w : Nat} (hm : s.holder m = some t) (hr : CanRun s.k t) (hw : w ∈ s.waiting m) :
    s.k.prio w ≤ s.k.prio s.k.current := by
  have h1 := C119_holder_high h hm hw
  have h2 := (Ready.C108_right_unless_pending_partial (h.j.ord (fun _ => trivial)) hp hy).2 t hr
  omega

/-- A mutex has one holder, a task holds one mutex, and who waits neither holds a mutex nor can
run. -/
theorem C119_exclusive (ho : OneLimited limited) (h : Reached limited s) {m t : Nat} (hm : s.holder m = some t) :
    (∀ m', s.holder m' = some t → m' = m) ∧ ∀ m', t ∉ s.waiting m' := by
  have J0 := h.j ho
  refine ⟨fun m' hm' => J0.inj _ _ _ hm' hm, fun m' hw => ?_⟩
  obtain ⟨i, hi⟩ := J0.w1 m' t hw
  have h1 := J0.call0 t _ hi
  have h2 := J0.held1 m t hm
  omega

theorem C119_waiting_sleeps (ho : OneLimited limited) (h : Reached limited s) {m w : Nat} (hw : w ∈ s.waiting m) :
    ¬ CanRun s.k w ∧ ¬ HoldsSome s w := by
  have J0 := h.j ho
  refine ⟨blocked_not_canRun (J0.blk m w hw), ?_⟩
  rintro ⟨m', hm'⟩
  exact (C119_exclusive ho h hm').2 m hw

/-- While tasks wait for a free mutex, a task that is not below any of them has been woken for it
and can run. -/
theorem C119_free_is_offered (h : Orderly limited s) {m w : Nat} (hm : s.holder m = none) (hw : w ∈ s.waiting m) :
    ∃ u i, s.call u = some ⟨m, i, false⟩ ∧ CanRun s.k u ∧ s.k.prio w ≤ s.k.prio u := by
  obtain ⟨u, i, a1, a2, a3, _⟩ := h.j.s8 m w trivial hm hw
  exact ⟨u, i, a1, a2, a3⟩

/-! ## Cases -/

/-- The running task, whether a switch is pending, the priorities of tasks 1 to 7, and holder and
waiting tasks of mutexes 0 and 1 after a history. -/
structure View where
  running : Nat
  pending : Bool
  prios : List Nat
  mutex0 : Option Nat × List Nat
  mutex1 : Option Nat × List Nat
deriving DecidableEq

def look (limited : Nat → Bool) (ts : List (Nat × Nat)) (es : List Ev) : Option View :=
  match run limited (start (fun _ => .mark .suspended) ts) es with
  | .error _ => none
  | .ok s => some ⟨s.k.current, s.k.pend, [1, 2, 3, 4, 5, 6, 7].map s.k.prio, (s.holder 0, s.waiting 0),
      (s.holder 1, s.waiting 1)⟩

/-- The running task sleeps for a time, or for good; the next one runs. -/
def nap : List Ev := [.other (.block (.until false 9)), .other .switch]
def off : List Ev := [.other (.block .forever), .other .switch]
/-- It waits for a mutex. -/
def wait (m : Nat) : List Ev := [.take m (.until false 9), .other .switch]
def waitForever (m : Nat) : List Ev := [.take m .forever, .other .switch]
/-- A tick wakes tasks. -/
def tick (ts : List Nat) : List Ev := [.other (.tick ts), .other .switch]
def yield : List Ev := [.other .yield, .other .switch]

-- Task 1 holds mutex 0, task 3 waits for it: task 1 runs at the priority of task 3, before task 2.
def lend : List Ev := nap ++ nap ++ [.take 0 .forever] ++ tick [2, 3] ++ waitForever 0

example : look (fun _ => false) [(1, 2), (2, 3), (3, 4)] lend =
    some ⟨1, false, [4, 3, 4, 0, 0, 0, 0], (some 1, [3]), (none, [])⟩ := by decide +kernel

-- It gives the mutex back and drops to its own priority; task 3 runs and takes the mutex.
example : look (fun _ => false) [(1, 2), (2, 3), (3, 4)] (lend ++ [.give 0]) =
    some ⟨1, true, [2, 3, 4, 0, 0, 0, 0], (none, []), (none, [])⟩ := by decide +kernel
example : look (fun _ => false) [(1, 2), (2, 3), (3, 4)] (lend ++ [.give 0, .other .switch, .take 0 .forever]) =
    some ⟨3, false, [2, 3, 4, 0, 0, 0, 0], (some 3, []), (none, [])⟩ := by decide +kernel

-- The time limit of task 3 ends: it takes the priority back. Task 2 still waits.
def late : List Ev := nap ++ nap ++ [.take 0 .forever] ++ tick [2] ++ wait 0 ++ tick [3] ++ wait 0 ++ tick [3]

example : look (fun _ => true) [(1, 2), (2, 3), (3, 4)] late =
    some ⟨3, false, [4, 3, 4, 0, 0, 0, 0], (some 1, [2]), (none, [])⟩ := by decide +kernel
example : look (fun _ => true) [(1, 2), (2, 3), (3, 4)] (late ++ [.check, .expire]) =
    some ⟨3, false, [3, 3, 4, 0, 0, 0, 0], (some 1, [2]), (none, [])⟩ := by decide +kernel

-- `Stale` and C108, as the firmware can do it with the mutex of the log, here mutex 0, the only
-- one with a time limit. Task 1 (own priority 4) gives it back at the priority that task 3 lent;
-- task 3 has timed out but not run since. Tasks 3 and 4 of priority 6 can run, task 1 goes on at
-- priority 4 and no switch is pending.
def stale : List Ev :=
  nap ++ nap ++ [.take 0 .forever] ++ nap ++ waitForever 0 ++ tick [3, 1] ++ wait 0 ++ [.other (.event 4 true)] ++
    yield ++ tick [3]

example : look (fun m => m == 0) [(1, 4), (2, 3), (3, 6), (4, 6)] stale =
    some ⟨1, false, [6, 3, 6, 6, 0, 0, 0], (some 1, [2]), (none, [])⟩ := by decide +kernel
example : look (fun m => m == 0) [(1, 4), (2, 3), (3, 6), (4, 6)] (stale ++ [.give 0] ++ tick [] ++ tick []) =
    some ⟨1, false, [4, 3, 6, 6, 0, 0, 0], (none, []), (none, [])⟩ := by decide +kernel

-- Task 1 goes on, and takes mutex 1, for which task 4 has been woken and task 5 waits: it holds
-- it at priority 4, below task 5 of priority 6. `C119_holder_high` needs its hypothesis.
def below : List Ev :=
  [.take 1 .forever] ++ nap ++ nap ++ waitForever 1 ++ waitForever 1 ++ [.take 0 .forever] ++ nap ++ waitForever 0 ++
    tick [3, 1] ++ wait 0 ++ tick [6] ++ [.give 1] ++ tick [3] ++ [.give 0, .take 1 .forever]

example : look (fun m => m == 0) [(1, 4), (2, 3), (3, 6), (4, 6), (5, 6), (6, 6)] below =
    some ⟨1, false, [4, 3, 6, 6, 6, 6, 0], (none, []), (some 1, [5])⟩ := by decide +kernel

-- With two mutexes with time limits: task 5 stops waiting for mutex 1, which task 1 holds at
-- priority 4, below task 7, which goes on waiting. `vTaskPriorityDisinheritAfterTimeout` raises
-- task 1, and clears the bit of the wrong list (tasks.c 4185).
def wrongBit : List Ev :=
  nap ++ nap ++ nap ++ nap ++ [.take 1 .forever] ++ nap ++ [.take 0 .forever] ++ nap ++ waitForever 0 ++
    tick [4] ++ wait 1 ++ tick [5] ++ wait 1 ++ tick [7] ++ wait 1 ++ tick [3, 1] ++ wait 0 ++ tick [6] ++
    tick [3] ++ yield ++ yield ++ [.give 1, .other .switch] ++ [.give 0, .take 1 .forever] ++ tick [5] ++ yield ++
    [.check, .expire]

example : look (fun _ => true) [(1, 4), (2, 3), (3, 6), (4, 6), (5, 6), (6, 5), (7, 6)] wrongBit =
    some ⟨5, false, [6, 3, 6, 6, 6, 5, 6], (none, []), (some 1, [7])⟩ := by decide +kernel

/-- Does a history end with a failed assertion? -/
def asserts (r : C St) : Bool :=
  match r with
  | .error .assertFail => true
  | _ => false

theorem asserts_spec {r : C St} (h : asserts r = true) : r = .error .assertFail := by
  unfold asserts at h
  split at h
  · rfl
  · cases h

/-- `C119_never_fails` needs its hypothesis: with two mutexes with time limits, an assertion of the
scheduler fails once all tasks above the empty list sleep. -/
theorem C119_two_limits_fail : ∃ junk ts es, run (fun _ => true) (start junk ts) es = .error .assertFail :=
  ⟨fun _ => .mark .suspended, [(1, 4), (2, 3), (3, 6), (4, 6), (5, 6), (6, 5), (7, 6)],
    wrongBit ++ off ++ [.take 0 .forever] ++ off ++ waitForever 1 ++ off ++ off,
    asserts_spec (by decide +kernel)⟩

end Verif.Inherit
