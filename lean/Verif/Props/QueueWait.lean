import Verif.Proofs.QueueWaitStep
import Verif.Spec.QueueWait

set_option autoImplicit false

/-!
# C110: waiting on a queue, semaphore or mutex
-/

namespace Verif.QueueWait

variable {n : Nat} {c : Cfg n} {s : St n}

theorem Reached.inv (hc : c.Fine) (h : Reached c s) : Inv c s := by
  obtain ⟨m, es, hm, rfl⟩ := h
  exact inv_run hc es (inv_create c hm)

theorem run_append (c : Cfg n) (as bs : List (Ev n)) (s : St n) :
    run c s (as ++ bs) = run c (run c s as) bs := by
  induction as generalizing s with
  | nil => rfl
  | cons e as ih => exact ih (step c s e)

theorem Reached.step (h : Reached c s) (e : Ev n) : Reached c (QueueWait.step c s e) := by
  obtain ⟨m, es, hm, rfl⟩ := h
  exact ⟨m, es ++ [e], hm, by rw [run_append]; rfl⟩

theorem woken_eq_awake (I : Inv c s) (h : s.susp = none) (d : Dir) :
    woken d s.pc (queueOf s d) = (awake s d).card := by
  unfold woken awake
  congr 1
  ext t
  simp only [Finset.mem_filter, Finset.mem_univ, true_and]
  have h0 : suspPc (s.pc t) = false := by
    have := I.susp t; rw [h] at this; simpa using this
  refine and_congr_left fun _ => ?_
  cases hp : s.pc t with
  | blocked e => cases d <;> cases e <;> simp [waitPc]
  | unlockTx e w => rw [hp] at h0; cases h0
  | unlockRx e w => rw [hp] at h0; cases h0
  | resume e w => rw [hp] at h0; cases h0
  | _ => simp [waitPc]

/-- **C110.** No wake-up is lost. Whenever no task is inside the kernel's own queue code and a
task sleeps waiting for a message (for room), there are at most as many messages (free places)
as there are tasks that have been woken for them and are on their way. Interrupts and other
tasks may have come between any two steps of the calls. -/
theorem C110_no_lost_wakeup (hc : c.Fine) (h : Reached c s) (hs : s.susp = none) {d : Dir}
    {t : Fin n} (ht : Asleep s d t) : amount c s d ≤ (awake s d).card := by
  have I := h.inv hc
  obtain ⟨u1, u2, _⟩ := tx_un_of_none I hs
  rw [← woken_eq_awake I hs]
  cases d with
  | send =>
      have := I.S.covered (List.ne_nil_of_mem ht.2)
      rw [u2] at this
      simpa [amount, queueOf] using this
  | recv =>
      have := I.R.covered (List.ne_nil_of_mem ht.2)
      rw [u1] at this
      simpa [amount, queueOf] using this

/-- When every woken task has had its turn, a task that still sleeps has nothing to be woken
for: the queue is empty, or full. -/
theorem C110_asleep_only_if_none (hc : c.Fine) (h : Reached c s) (hs : s.susp = none) {d : Dir}
    {t : Fin n} (ht : Asleep s d t) (ha : awake s d = ∅) : amount c s d = 0 := by
  have := C110_no_lost_wakeup hc h hs ht
  rw [ha] at this
  simpa using this

/-- A mutex that is free while a task sleeps waiting for it has been given to nobody, but some
task has been woken to take it. -/
theorem C110_free_mutex_has_taker (hc : c.Fine) (h : Reached c s) (hs : s.susp = none)
    {t : Fin n} (ht : Asleep s .recv t) (hm : 0 < s.msgs) : ∃ x, x ∈ awake s .recv := by
  have h1 := C110_no_lost_wakeup hc h hs ht
  have : 0 < (awake s .recv).card := lt_of_lt_of_le hm h1
  exact Finset.card_pos.mp this

/-- A woken task that has its turn looks at the queue: it gets its message, unless another task
took it first, in which case it waits on if it has time to. -/
theorem C110_woken_looks (hs : s.susp = none) {t : Fin n} (ht : t ∈ awake s .recv) (b : Bool) :
    (0 < s.msgs → (step c s (.step t b)).msgs = s.msgs - 1 ∧
      (step c s (.step t b)).rets = (t, .recv, true) :: s.rets) ∧
    (s.msgs = 0 → s.block t = true → (step c s (.step t b)).pc t = .suspend .recv) := by
  obtain ⟨h1, h2⟩ : s.pc t = .blocked .recv ∧ t ∉ s.waitR := by
    have := (Finset.mem_filter.mp ht).2
    simpa [queueOf] using this
  constructor
  · intro hm
    simp [step, hs, taskStep, h1, h2, attempt, hm, ret]
  · intro hm hb
    simp [step, hs, taskStep, h1, h2, attempt, hm, hb, go]

/-! ## Who is woken -/

/-- The list of waiting tasks is in order of priority. -/
def Ordered (prio : Fin n → Nat) (l : List (Fin n)) : Prop := l.Pairwise fun a b => prio b ≤ prio a

theorem ordered_insert {prio : Fin n → Nat} {t : Fin n} : ∀ {l : List (Fin n)},
    Ordered prio l → Ordered prio (insertWait prio t l)
  | [], _ => by simp [insertWait, Ordered]
  | y :: ys, h => by
      have h' := List.pairwise_cons.mp h
      simp only [insertWait]
      split_ifs with hlt
      · refine List.pairwise_cons.mpr ⟨fun x hx => ?_, h⟩
        rcases List.mem_cons.mp hx with rfl | hx
        · omega
        · have := h'.1 x hx; omega
      · refine List.pairwise_cons.mpr ⟨fun x hx => ?_, ordered_insert h'.2⟩
        rcases mem_insertWait.mp hx with rfl | hx
        · omega
        · exact h'.1 x hx

theorem ordered_wake {prio : Fin n → Nat} {l : List (Fin n)} (h : Ordered prio l) :
    Ordered prio (wake l) := by
  cases l with
  | nil => exact h
  | cons x xs => exact (List.pairwise_cons.mp h).2

theorem ordered_wakeMany {prio : Fin n → Nat} : ∀ (k : Nat) {l : List (Fin n)},
    Ordered prio l → Ordered prio (wakeMany k l)
  | 0, _, h => h
  | _ + 1, [], h => h
  | k + 1, _ :: xs, h => ordered_wakeMany k (List.pairwise_cons.mp h).2

theorem ordered_step (h : Ordered c.prio s.waitS ∧ Ordered c.prio s.waitR) (e : Ev n) :
    Ordered c.prio (step c s e).waitS ∧ Ordered c.prio (step c s e).waitR := by
  have hatt : ∀ t d, Ordered c.prio (attempt c s t d).waitS ∧ Ordered c.prio (attempt c s t d).waitR := by
    intro t d
    cases d <;> simp only [attempt] <;> split_ifs <;>
      first
      | exact h
      | exact ⟨h.1, ordered_wake h.2⟩
      | exact ⟨ordered_wake h.1, h.2⟩
  cases e with
  | call t d b => simp only [step]; split_ifs <;> exact h
  | step t ex =>
      simp only [step]
      split_ifs
      · unfold taskStep
        cases hp : s.pc t with
        | try_ d => exact hatt t d
        | check d =>
            cases ex <;> cases d <;> simp only [Bool.false_eq_true, if_false, if_true] <;>
              first | exact h | (split_ifs <;> exact h)
        | place d =>
            cases d with
            | send => exact ⟨ordered_insert h.1, h.2⟩
            | recv => exact ⟨h.1, ordered_insert h.2⟩
        | unlockTx d w => exact ⟨h.1, ordered_wakeMany _ h.2⟩
        | unlockRx d w => exact ⟨ordered_wakeMany _ h.1, h.2⟩
        | resume d w => cases w <;> cases d <;> exact h
        | blocked d =>
            cases d <;> simp only <;> split_ifs <;> first | exact h | exact hatt t _
        | last => simp only; split_ifs <;> exact h
        | _ => exact h
      · exact h
  | tick t =>
      simp only [step]
      split_ifs
      · split
        · exact ⟨h.1.sublist List.erase_sublist, h.2⟩
        · exact ⟨h.1, h.2.sublist List.erase_sublist⟩
        · exact h
      · exact h
  | isrSend =>
      simp only [step]
      split_ifs
      · exact ⟨h.1, ordered_wake h.2⟩
      · exact h
      · exact h
  | isrRecv =>
      simp only [step]
      split_ifs
      · exact ⟨ordered_wake h.1, h.2⟩
      · exact h
      · exact h

theorem Reached.ordered (h : Reached c s) (d : Dir) : Ordered c.prio (queueOf s d) := by
  obtain ⟨m, es, _, rfl⟩ := h
  have key : ∀ (es : List (Ev n)) (a : St n), Ordered c.prio a.waitS ∧ Ordered c.prio a.waitR →
      Ordered c.prio (run c a es).waitS ∧ Ordered c.prio (run c a es).waitR := by
    intro es
    induction es with
    | nil => intro a h; exact h
    | cons e es ih => intro a h; exact ih _ (ordered_step h e)
  have h0 := key es (create n m) ⟨by simp [create, Ordered], by simp [create, Ordered]⟩
  cases d with
  | send => exact h0.1
  | recv => exact h0.2

/-- **C110.** The first to be woken is always one of the highest priority among those waiting. -/
theorem C110_highest_first (h : Reached c s) {d : Dir} {x : Fin n} {xs : List (Fin n)}
    (hq : queueOf s d = x :: xs) : ∀ y ∈ xs, c.prio y ≤ c.prio x := by
  have hO := h.ordered d
  rw [hq] at hO
  exact (List.pairwise_cons.mp hO).1

theorem insertWait_split {prio : Fin n → Nat} {t : Fin n} : ∀ {l : List (Fin n)}, Ordered prio l →
    ∃ l1 l2, l = l1 ++ l2 ∧ insertWait prio t l = l1 ++ t :: l2 ∧
      (∀ y ∈ l1, prio t ≤ prio y) ∧ (∀ z ∈ l2, prio z < prio t)
  | [], _ => ⟨[], [], rfl, rfl, by simp, by simp⟩
  | y :: ys, h => by
      have h' := List.pairwise_cons.mp h
      simp only [insertWait]
      split_ifs with hlt
      · refine ⟨[], y :: ys, rfl, rfl, by simp, ?_⟩
        intro z hz
        rcases List.mem_cons.mp hz with rfl | hz
        · exact hlt
        · exact lt_of_le_of_lt (h'.1 z hz) hlt
      · obtain ⟨l1, l2, h1, h2, h3, h4⟩ := insertWait_split (t := t) h'.2
        refine ⟨y :: l1, l2, by simp [← h1], by simp [h2], ?_, h4⟩
        intro z hz
        rcases List.mem_cons.mp hz with rfl | hz
        · omega
        · exact h3 z hz

/-- **C110.** A task that starts to wait goes behind all that wait already with the same or a
higher priority and before all others, and changes nothing about their order. -/
theorem C110_behind_equals (h : Reached c s) {t : Fin n} {d : Dir} (hp : s.pc t = .place d)
    (hs : s.susp = some t) (b : Bool) :
    ∃ l1 l2, queueOf s d = l1 ++ l2 ∧ queueOf (step c s (.step t b)) d = l1 ++ t :: l2 ∧
      (∀ y ∈ l1, c.prio t ≤ c.prio y) ∧ (∀ z ∈ l2, c.prio z < c.prio t) := by
  obtain ⟨l1, l2, h1, h2, h3, h4⟩ := insertWait_split (t := t) (h.ordered d)
  refine ⟨l1, l2, h1, ?_, h3, h4⟩
  rw [← h2]
  cases d <;> simp [step, hs, taskStep, hp, queueOf]

/-- **C110.** What is sent or received when nobody is in the kernel's queue code takes the first
waiting task off the list, and no other. -/
theorem C110_first_is_woken (h : Reached c s) (hc : c.Fine) (hs : s.susp = none) {x : Fin n}
    {xs : List (Fin n)} :
    (s.waitR = x :: xs → s.msgs < c.len → c.isrSends = true → (step c s .isrSend).waitR = xs) ∧
    (s.waitS = x :: xs → 0 < s.msgs → c.isrRecvs = true → (step c s .isrRecv).waitS = xs) ∧
    (∀ t b, s.waitR = x :: xs → s.msgs < c.len → s.pc t = .try_ .send →
      (step c s (.step t b)).waitR = xs) ∧
    (∀ t b, s.waitS = x :: xs → 0 < s.msgs → s.pc t = .try_ .recv →
      (step c s (.step t b)).waitS = xs) := by
  obtain ⟨u1, u2, _⟩ := tx_un_of_none (h.inv hc) hs
  refine ⟨?_, ?_, ?_, ?_⟩
  · intro h1 h2 h3; simp [step, h1, h2, h3, u1, wake]
  · intro h1 h2 h3; simp [step, h1, h2, h3, u2, wake]
  · intro t b h1 h2 h3; simp [step, hs, taskStep, h1, h2, h3, attempt, ret, wake]
  · intro t b h1 h2 h3; simp [step, hs, taskStep, h1, h2, h3, attempt, ret, wake]

/-! ## Results -/

/-- Positions on the way to failure. -/
def latePc : Pc → Bool
  | .unlockTx _ .expired | .unlockRx _ .expired | .resume _ .expired | .last => true
  | _ => false

structure PInv (s : St n) : Prop where
  pc : ∀ t, latePc (s.pc t) = false
  block : ∀ t, s.pc t ≠ .idle → s.block t = true
  rets : ∀ t d, (t, d, false) ∉ s.rets

theorem pinv_go (P : PInv s) {t : Fin n} {p : Pc} {s' : St n} (hi : s.pc t ≠ .idle)
    (hp : latePc p = false) (h1 : s'.pc = Function.update s.pc t p) (h2 : s'.block = s.block)
    (h3 : s'.rets = s.rets ∨ ∃ d, s'.rets = (t, d, true) :: s.rets) : PInv s' := by
  constructor
  · intro x
    rw [h1]
    by_cases hx : x = t
    · subst hx; simpa using hp
    · rw [Function.update_of_ne hx]; exact P.pc x
  · intro x hx
    rw [h2]
    by_cases hxt : x = t
    · subst hxt; exact P.block _ hi
    · rw [h1, Function.update_of_ne hxt] at hx; exact P.block x hx
  · intro x d
    rcases h3 with h3 | ⟨e, h3⟩
    · rw [h3]; exact P.rets x d
    · rw [h3]
      simp only [List.mem_cons, Prod.mk.injEq, Bool.false_eq_true, and_false, false_or]
      exact P.rets x d

theorem pinv_attempt (P : PInv s) {t : Fin n} (hi : s.pc t ≠ .idle) (d : Dir) :
    PInv (attempt c s t d) := by
  have hb := P.block t hi
  cases d <;> simp only [attempt]
  · split_ifs
    · exact pinv_go P hi (p := .idle) rfl rfl rfl (.inr ⟨_, rfl⟩)
    · exact pinv_go P hi (p := .suspend .send) rfl rfl rfl (.inl rfl)
  · split_ifs
    · exact pinv_go P hi (p := .idle) rfl rfl rfl (.inr ⟨_, rfl⟩)
    · exact pinv_go P hi (p := .suspend .recv) rfl rfl rfl (.inl rfl)

theorem pinv_step (P : PInv s) {e : Ev n} (he : e.patient) : PInv (step c s e) := by
  cases e with
  | call t d b =>
      simp only [step]
      split_ifs with h
      · have hb : b = true := he
        constructor
        · intro x
          simp only [go]
          by_cases hx : x = t
          · subst hx; simp [latePc]
          · rw [Function.update_of_ne hx]; exact P.pc x
        · intro x hx
          simp only [go] at hx ⊢
          by_cases hxt : x = t
          · subst hxt; simpa using hb
          · rw [Function.update_of_ne hxt] at hx ⊢; exact P.block x hx
        · exact P.rets
      · exact P
  | step t ex =>
      have hex : ex = false := he
      subst hex
      simp only [step]
      have hl := P.pc t
      by_cases h : s.susp = none ∨ s.susp = some t
      · rw [if_pos h]
        unfold taskStep
        cases hp : s.pc t with
        | idle => exact P
        | try_ d => exact pinv_attempt P (by rw [hp]; simp) d
        | suspend d => exact pinv_go P (by rw [hp]; simp) (p := .lock d) rfl rfl rfl (.inl rfl)
        | lock d => exact pinv_go P (by rw [hp]; simp) (p := .check d) rfl rfl rfl (.inl rfl)
        | check d =>
            cases d <;> simp only [Bool.false_eq_true, if_false] <;> split_ifs <;>
              exact pinv_go P (by rw [hp]; simp) (by rfl) rfl rfl (.inl rfl)
        | place d =>
            cases d <;> exact pinv_go P (by rw [hp]; simp) (by rfl) rfl rfl (.inl rfl)
        | unlockTx d w =>
            refine pinv_go P (by rw [hp]; simp) (p := .unlockRx d w) ?_ rfl rfl (.inl rfl)
            rw [hp] at hl; cases w <;> simp_all [latePc]
        | unlockRx d w =>
            refine pinv_go P (by rw [hp]; simp) (p := .resume d w) ?_ rfl rfl (.inl rfl)
            rw [hp] at hl; cases w <;> simp_all [latePc]
        | resume d w =>
            rw [hp] at hl
            cases w with
            | placed => exact pinv_go P (by rw [hp]; simp) (p := .blocked d) rfl rfl rfl (.inl rfl)
            | retry => exact pinv_go P (by rw [hp]; simp) (p := .try_ d) rfl rfl rfl (.inl rfl)
            | expired => simp [latePc] at hl
        | blocked d =>
            cases d <;> simp only <;> split_ifs <;>
              first | exact P | exact pinv_attempt P (by rw [hp]; simp) _
        | last => rw [hp] at hl; simp [latePc] at hl
      · rw [if_neg h]; exact P
  | tick t =>
      simp only [step]
      split_ifs
      · split <;> exact ⟨P.pc, P.block, P.rets⟩
      · exact P
  | isrSend => simp only [step]; split_ifs <;> exact ⟨P.pc, P.block, P.rets⟩
  | isrRecv => simp only [step]; split_ifs <;> exact ⟨P.pc, P.block, P.rets⟩

/-- **C110.** A call with a block time fails only when its time has run out: being woken for
something another task then takes makes it wait on. -/
theorem C110_fails_only_late {m : Nat} {es : List (Ev n)} (he : ∀ e ∈ es, e.patient) (t : Fin n)
    (d : Dir) : (t, d, false) ∉ (run c (create n m) es).rets := by
  have key : ∀ (es : List (Ev n)) (a : St n), PInv a → (∀ e ∈ es, e.patient) → PInv (run c a es) := by
    intro es
    induction es with
    | nil => intro a P _; exact P
    | cons e es ih =>
        intro a P he
        exact ih _ (pinv_step P (he e (by simp))) (fun x hx => he x (by simp [hx]))
  refine (key es _ ?_ he).rets t d
  constructor <;> simp [create, latePc]

/-! ## Examples -/

/-- The transmit queue of a CAN bus (can.h 28, can.c 164, 335): 64 messages, received by an
interrupt; two tasks of priorities 3 and 5. -/
def canTx : Cfg 2 := ⟨64, fun t => if t = 0 then 3 else 5, false, true⟩

/-- A mutex between two tasks. -/
def mutex : Cfg 2 := ⟨1, fun t => if t = 0 then 3 else 5, false, false⟩

example : canTx.Fine ∧ mutex.Fine := ⟨⟨by decide, .inl rfl⟩, ⟨by decide, .inl rfl⟩⟩

/-- Task 1 takes the mutex, task 0 tries and goes to sleep, task 1 gives it back: task 0 is
woken and takes it. -/
def mutexRun : List (Ev 2) :=
  [Ev.call 1 .recv true, .step 1 false, .call 0 .recv true] ++ List.replicate 8 (.step 0 false)

example : let s := run mutex (create 2 1) mutexRun
    (s.msgs, s.pc 0, s.waitR, s.susp) = (0, .blocked .recv, [0], none) := by decide +kernel

example : let s := run mutex (create 2 1) (mutexRun ++ [.call 1 .send false, .step 1 false])
    (s.msgs, s.pc 0, s.waitR) = (1, .blocked .recv, []) := by decide +kernel

example : let s := run mutex (create 2 1) (mutexRun ++ [.call 1 .send false, .step 1 false, .step 0 false])
    (s.msgs, s.pc 0, s.rets) = (0, .idle, [(0, .recv, true), (1, .send, true), (1, .recv, true)]) := by
  decide +kernel

/-- An interrupt takes a message out of the full queue just when a sender is about to put
itself on the list: the lock count makes it leave the list again. -/
def canRun : List (Ev 2) :=
  [.call 0 .send true] ++ List.replicate 4 (.step 0 false) ++ [.isrRecv] ++
    List.replicate 4 (.step 0 false)

example : let s := run canTx (create 2 64) canRun
    (s.msgs, s.pc 0, s.waitS, s.susp) = (63, .blocked .send, [], none) := by decide +kernel

example : let s := run canTx (create 2 64) (canRun ++ [.step 0 false])
    (s.msgs, s.pc 0, s.rets) = (64, .idle, [(0, .send, true)]) := by decide +kernel

/-- Both tasks wait: the one of higher priority is woken first although it came later. -/
def bothRun : List (Ev 2) :=
  [.call 0 .send true] ++ List.replicate 8 (.step 0 false) ++ [.call 1 .send true] ++
    List.replicate 8 (.step 1 false)

example : let s := run canTx (create 2 64) bothRun
    (s.waitS, (step canTx s .isrRecv).waitS) = ([1, 0], [0]) := by decide +kernel

/-- Why the queue must be short: the lock count is an `int8_t`. With 200 places, 128 messages
sent by interrupts while a receiver is putting itself on the list leave it asleep there. None
of the firmware's longer queues (256 places, bms.h 23, cInverter.h 25) is ever waited on
(orionBms.c 151, cInverter.c 303: block time 0). -/
def longRun : List (Ev 1) :=
  [.call 0 .recv true] ++ List.replicate 5 (.step 0 false) ++ List.replicate 128 .isrSend ++
    List.replicate 3 (.step 0 false)

example : let s := run (⟨200, fun _ => 3, true, false⟩ : Cfg 1) (create 1 0) longRun
    (s.msgs, s.pc 0, s.waitR, s.susp) = (128, .blocked .recv, [0], none) := by decide +kernel

end Verif.QueueWait
