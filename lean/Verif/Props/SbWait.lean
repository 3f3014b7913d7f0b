import Verif.Proofs.SbWait
import Verif.Spec.SbWait

set_option autoImplicit false

/-!
# C109: waiting on a stream buffer
-/

namespace Verif.SbWait

theorem Reached.inv {c : Cfg} (hc : 0 < c.trig) {s : St} (h : Reached c s) : Inv c s := by
  obtain ⟨rN, wN, es, h⟩ := h
  exact inv_run hc es (inv_create c rN wN) h

theorem run_append {c : Cfg} (as bs : List Ev) {s s1 : St} (h : run c s as = .ok s1) :
    run c s (as ++ bs) = run c s1 bs := by
  induction as generalizing s with
  | nil => simp only [run] at h; cases h; rfl
  | cons e as ih =>
      simp only [run, List.cons_append] at h ⊢
      cases hs : step c s e with
      | error u => rw [hs] at h; cases h
      | ok s2 => rw [hs] at h; exact ih h

/-- The assertions on the single reader and the single writer (553, 757) never fail: whatever
happens in whatever order, the functions run. -/
theorem C109_never_fails (c : Cfg) (hc : 0 < c.trig) (rN wN : Notif) (es : List Ev) :
    ∃ s, run c (create rN wN) es = .ok s := by
  suffices H : ∀ es s, Inv c s → ∃ s', run c s es = .ok s' from H es _ (inv_create c rN wN)
  intro es
  induction es with
  | nil => intro s _; exact ⟨s, rfl⟩
  | cons e es ih =>
      intro s I
      obtain ⟨s1, h1⟩ := step_ok I e
      simp only [run, h1]
      exact ih s1 (inv_step hc I h1)

/-- **C109.** A reader is never left asleep on a buffer that has reached its trigger level: if
it is asleep then either there are fewer bytes, or the writer is a task that has just written
and whose next two steps make it runnable, whatever else happens between them. With an interrupt
as writer there is no such moment. -/
theorem C109_reader_not_forgotten {c : Cfg} (hc : 0 < c.trig) {s : St} (h : Reached c s)
    (ha : s.rPc = .asleep) :
    s.bytes < c.trig ∨ (c.wIsr = false ∧ (∃ k, s.wPc = .wrote k ∨ s.wPc = .completing k)) := by
  obtain ⟨a1, a2, a3, a4, a5, a6, a7, a8, a9, a10, a11⟩ := h.inv hc
  rcases (a6 ha).2.2 with hb | hb
  · exact .inl hb
  · right
    cases hw : s.wPc <;> simp [hw, WPc.telling] at hb
    · refine ⟨?_, _, .inl rfl⟩
      cases hi : c.wIsr with
      | false => rfl
      | true => rw [a5 hi] at hw; cases hw
    · refine ⟨?_, _, .inr rfl⟩
      cases hi : c.wIsr with
      | false => rfl
      | true => rw [a5 hi] at hw; cases hw

/-- The step at which the writer tells a sleeping reader makes it runnable. -/
theorem C109_reader_told {c : Cfg} (hc : 0 < c.trig) {s s' : St} (h : Reached c s)
    (ha : s.rPc = .asleep) {k : Nat} (hw : s.wPc = .completing k) {late : Bool}
    (hs : step c s (.writer late) = .ok s') : s'.rPc = .woken := by
  obtain ⟨a1, a2, a3, a4, a5, a6, a7, a8, a9, a10, a11⟩ := h.inv hc
  obtain ⟨b1, b2, _⟩ := a6 ha
  simp only [step, writerStep, hw] at hs
  cases hs
  simp [sendCompleted, notifyR, b1, b2, ha]

/-- The writer does go from having written to telling when the trigger level is reached. -/
theorem C109_writer_goes_on {c : Cfg} {s s' : St} {k : Nat} (hw : s.wPc = .wrote k)
    (hb : c.trig ≤ s.bytes) {late : Bool} (hs : step c s (.writer late) = .ok s') :
    s'.wPc = .completing k ∧ s'.rPc = s.rPc := by
  simp only [step, writerStep, hw, if_pos hb] at hs
  cases hs
  exact ⟨rfl, rfl⟩

/-- **C109.** A writer is never left asleep on a buffer that has room for all it wants to send:
if it is asleep then either there is less room, or the reader is a task that has just taken
bytes out and whose next step makes the writer runnable. -/
theorem C109_writer_not_forgotten {c : Cfg} (hc : 0 < c.trig) {s : St} (h : Reached c s)
    (ha : s.wPc = .asleep) :
    c.cap - s.bytes < s.wLen ∨
      (c.rIsr = false ∧ (∃ k, s.rPc = .completing k) ∧
        ∀ s', step c s .reader = .ok s' → s'.wPc = .woken) := by
  obtain ⟨a1, a2, a3, a4, a5, a6, a7, a8, a9, a10, a11⟩ := h.inv hc
  obtain ⟨b1, b2, hb⟩ := a8 ha
  rcases hb with hb | hb
  · exact .inl hb
  · right
    cases hr : s.rPc <;> simp [hr, RPc.telling] at hb
    refine ⟨?_, ⟨_, rfl⟩, ?_⟩
    · cases hi : c.rIsr with
      | false => rfl
      | true => rw [a4 hi] at hr; cases hr
    · intro s' hs
      simp only [step, readerStep, hr] at hs
      cases hs
      simp [receiveCompleted, notifyW, b1, b2, ha]

theorem step_val {c : Cfg} {s s' : St} {e : Ev} (h : step c s e = .ok s')
    (hn : ∀ a st, e ≠ .takeR a st) :
    s'.rN.val = s.rN.val + (if e = .giveR then 1 else 0) := by
  cases e with
  | receive m b => simp only [step] at h; split_ifs at h <;> cases h <;> simp
  | reader =>
      simp only [step, readerStep] at h
      cases hp : s.rPc <;> simp only [hp] at h
      · cases h; simp
      · split_ifs at h <;> cases h <;> simp [stateClear_val]
      · cases h; simp [waitEnter_val]
      · cases h; simp
      · cases h; simp [waitLeave_val]
      · cases h; simp
      · cases h; simp
      · split_ifs at h <;> cases h <;> simp
      · cases h; simp [receiveCompleted, notifyW]; split_ifs <;> rfl
  | rTick => simp only [step] at h; cases h; split_ifs <;> simp_all
  | send l b => simp only [step] at h; split_ifs at h <;> cases h <;> simp
  | writer late =>
      simp only [step, writerStep] at h
      cases hp : s.wPc <;> simp only [hp] at h
      · cases h; simp
      · split_ifs at h <;> cases h <;> simp
      · cases h; simp
      · cases h; simp
      · cases h; simp
      · cases h; simp
      · cases h; simp
      · cases h; simp
      · split_ifs at h <;> cases h <;> simp
      · split_ifs at h <;> cases h <;> simp
      · cases h; simp [sendCompleted, notifyR]; split_ifs <;> rfl
  | wTick => simp only [step] at h; cases h; split_ifs <;> simp_all
  | isrSend l =>
      simp only [step] at h; cases h
      unfold isrSend sendCompleted notifyR
      split_ifs <;> simp_all
  | isrReceive m =>
      simp only [step] at h; cases h
      unfold isrReceive receiveCompleted notifyW
      split_ifs <;> simp_all
  | giveR => simp only [step] at h; cases h; simp
  | giveW => simp only [step] at h; cases h; simp [notifyW]
  | takeR a st => exact absurd rfl (hn a st)
  | takeW a st => simp only [step] at h; cases h; split_ifs <;> simp_all

/-- **C109.** Waiting on a stream buffer uses up no notification: between two of the task's own
takings the notification count it finds has grown by exactly the number given, modulo 2^32, no
matter how often it waited meanwhile, was woken, ran out of time or was not told at all. -/
theorem C109_no_notification_lost {c : Cfg} : ∀ (es : List Ev) {s s' : St}
    (_ : run c s es = .ok s') (_ : ∀ a st, Ev.takeR a st ∉ es),
    s'.rN.val = s.rN.val + UInt32.ofNat (gives es)
  | [], s, s', h, _ => by simp only [run] at h; cases h; simp [gives]
  | e :: es, s, s', h, hn => by
      simp only [run] at h
      cases hs : step c s e with
      | error u => rw [hs] at h; cases h
      | ok s1 =>
          rw [hs] at h
          have h1 := C109_no_notification_lost es h (fun a st hm => hn a st (by simp [hm]))
          have h2 := step_val hs (fun a st he => hn a st (by simp [he]))
          rw [h1, h2]
          simp only [gives, List.count_cons]
          by_cases hg : e = .giveR
          · subst hg
            simp [UInt32.ofNat_add, UInt32.add_assoc, UInt32.add_comm]
          · rw [if_neg hg, if_neg (by simpa using hg)]; simp

/-! ## What a call returns -/

structure RInv (s : St) : Prop where
  woken : s.rPc = .woken ∨ s.rPc = .unregister → 0 < s.bytes
  reg : s.rPc = .registered → s.rN.st = .received → 0 < s.bytes
  recheck : s.rPc = .recheck → s.rBlock = true → 0 < s.bytes
  reading : ∀ a, s.rPc = .reading a → s.rBlock = true → 0 < a
  max : s.rPc ≠ .idle → 0 < s.rMax
  compl : ∀ k, s.rPc = .completing k → 0 < k
  rets : ∀ n, (true, n) ∈ s.rRets → 0 < n

theorem rinv_step {c : Cfg} (hw : c.wIsr = true) {s s' : St} {e : Ev} (I : Inv c s)
    (J : RInv s) (he : e.undisturbed) (h : step c s e = .ok s') : RInv s' := by
  have hclr := stateClear_st s.rN
  have hi := I.wIsr hw
  have hasl := I.rAsleep
  have hIr := I.rIsr
  obtain ⟨b1, b2, b3, b4, b5, b6, b7⟩ := J
  cases e with
  | receive m b =>
      simp only [step] at h
      by_cases hc : c.rIsr = false ∧ s.rPc = .idle
      · rw [if_pos hc] at h; cases h
        have : 0 < m := he
        cases b <;> constructor <;> simp_all
      · rw [if_neg hc] at h; cases h; constructor <;> assumption
  | reader =>
      simp only [step, readerStep] at h
      cases hp : s.rPc with
      | idle => simp only [hp] at h; cases h; constructor <;> assumption
      | check =>
          simp only [hp] at h
          split_ifs at h <;> cases h <;> constructor <;> simp_all
          omega
      | registered =>
          simp only [hp] at h; cases h
          constructor <;> simp_all [waitEnter] <;> grind
      | asleep => simp only [hp] at h; cases h; constructor <;> assumption
      | woken => simp only [hp] at h; cases h; constructor <;> simp_all
      | unregister => simp only [hp] at h; cases h; constructor <;> simp_all
      | recheck => simp only [hp] at h; cases h; constructor <;> simp_all
      | reading a =>
          simp only [hp] at h
          have b4' := b4 a hp
          have b5' := b5 (by simp [hp])
          by_cases hq : 0 < a ∧ 0 < min s.rMax a
          · rw [if_pos hq] at h; cases h
            constructor <;> simp_all
          · rw [if_neg hq] at h; cases h
            have ha : a = 0 := by omega
            constructor <;> simp_all
      | completing k =>
          simp only [hp] at h; cases h
          have b6' := b6 k hp
          constructor <;> simp_all [receiveCompleted, notifyW]
          rintro n (⟨_, rfl⟩ | hn)
          · exact b6'
          · exact b7 n hn
  | rTick => exact he.elim
  | giveR => exact he.elim
  | send l b =>
      simp only [step] at h
      rw [if_neg (by simp [hw])] at h
      cases h; constructor <;> assumption
  | writer late =>
      simp only [step, writerStep, hi] at h; cases h; constructor <;> assumption
  | wTick => simp only [step, hi] at h; cases h; constructor <;> simpa
  | isrSend l =>
      simp only [step, hw] at h; cases h
      unfold isrSend sendCompleted notifyR
      simp only [if_true]
      by_cases h0 : ¬ 0 < min l (c.cap - s.bytes)
      · rw [if_neg h0]; constructor <;> assumption
      have h0 := Decidable.not_not.mp h0
      rw [if_pos h0]
      generalize hk : min l (c.cap - s.bytes) = k at *
      split_ifs
      · constructor <;> simp_all <;> grind
      · constructor <;> simp_all <;> grind
      · constructor <;> simp_all <;> grind
      · constructor <;> simp_all <;> grind
  | isrReceive m =>
      simp only [step] at h; cases h
      by_cases hr : c.rIsr = true
      · rw [if_pos hr]
        have := hIr hr
        unfold isrReceive receiveCompleted notifyW
        split_ifs <;> constructor <;> simp_all
      · rw [if_neg hr]; constructor <;> assumption
  | giveW => simp only [step, notifyW] at h; cases h; constructor <;> assumption
  | takeR a st =>
      simp only [step] at h; cases h
      by_cases hr : s.rPc = .idle
      · rw [if_pos hr]; constructor <;> simp_all
      · rw [if_neg hr]; constructor <;> assumption
  | takeW a st =>
      simp only [step] at h; cases h
      split_ifs <;> constructor <;> assumption

/-- **C109.** With an interrupt as writer, a receive with a block time comes back without a byte
only if its time ran out or the task was notified by something else: in particular no
notification left over from earlier ends the wait. -/
theorem C109_wait_ends_with_data {c : Cfg} (hc : 0 < c.trig) (hw : c.wIsr = true) (rN wN : Notif)
    {es : List Ev} {s : St} (h : run c (create rN wN) es = .ok s) (he : ∀ e ∈ es, e.undisturbed)
    {n : Nat} (hn : (true, n) ∈ s.rRets) : 0 < n := by
  suffices H : ∀ (es : List Ev) (a : St), Inv c a → RInv a → run c a es = .ok s →
      (∀ e ∈ es, e.undisturbed) → RInv s by
    refine (H es _ (inv_create c rN wN) ?_ h he).rets n hn
    constructor <;> simp [create]
  intro es
  induction es with
  | nil => intro a _ J h _; simp only [run] at h; cases h; exact J
  | cons e es ih =>
      intro a I J h he
      simp only [run] at h
      cases hs : step c a e with
      | error u => rw [hs] at h; cases h
      | ok a1 =>
          rw [hs] at h
          exact ih a1 (inv_step hc I hs) (rinv_step hw I J (he e (by simp)) hs) h
            (fun x hx => he x (by simp [hx]))

/-- All sent, or late. -/
def RetOk (x : Nat × Nat × Bool) : Prop := x.2.1 ≤ x.1 ∧ (x.2.2 = true ∨ x.2.1 = x.1)

structure SInv (c : Cfg) (s : St) : Prop where
  sizing : s.wPc = .sizing ∨ s.wPc = .writing → s.wLate = true ∨ s.wLen ≤ s.wSpace
  wrote : ∀ k, s.wPc = .wrote k ∨ s.wPc = .completing k → k ≤ s.wLen ∧ (s.wLate = true ∨ k = s.wLen)
  rets : ∀ x ∈ s.wRets, RetOk x

theorem sinv_step {c : Cfg} {s s' : St} {e : Ev} (J : SInv c s)
    (h : step c s e = .ok s') : SInv c s' := by
  obtain ⟨b1, b2, b3⟩ := J
  cases e with
  | receive m b => simp only [step] at h; split_ifs at h <;> cases h <;> constructor <;> assumption
  | reader =>
      simp only [step, readerStep] at h
      cases hp : s.rPc <;> simp only [hp] at h
      · cases h; constructor <;> assumption
      · split_ifs at h <;> cases h <;> constructor <;> assumption
      · cases h; constructor <;> assumption
      · cases h; constructor <;> assumption
      · cases h; constructor <;> assumption
      · cases h; constructor <;> assumption
      · cases h; constructor <;> assumption
      · split_ifs at h <;> cases h <;> constructor <;> assumption
      · cases h
        unfold receiveCompleted notifyW
        split_ifs <;> constructor <;> simp_all
  | rTick => simp only [step] at h; cases h; split_ifs <;> constructor <;> assumption
  | giveR => simp only [step, notifyR] at h; cases h; constructor <;> assumption
  | send l b =>
      simp only [step] at h
      split_ifs at h with hc
      · cases h
        cases b <;> constructor <;> simp_all
      · cases h
        cases b <;> constructor <;> simp_all
      · cases h; constructor <;> assumption
  | writer late =>
      simp only [step, writerStep] at h
      cases hp : s.wPc with
      | idle => simp only [hp] at h; cases h; constructor <;> assumption
      | check =>
          simp only [hp] at h
          split_ifs at h <;> cases h <;> constructor <;> simp_all
      | registered => simp only [hp] at h; cases h; constructor <;> simp_all <;> grind [RetOk]
      | asleep => simp only [hp] at h; cases h; constructor <;> assumption
      | woken => simp only [hp] at h; cases h; constructor <;> simp_all
      | unregister => simp only [hp] at h; cases h; constructor <;> simp_all
      | expiry =>
          simp only [hp] at h; cases h
          cases late <;> constructor <;> simp_all
      | sizing =>
          simp only [hp] at h; cases h
          constructor <;> simp_all <;> grind [RetOk]
      | writing =>
          simp only [hp] at h
          split_ifs at h <;> cases h <;> constructor <;> simp_all <;> grind [RetOk]
      | wrote k =>
          simp only [hp] at h
          split_ifs at h <;> cases h <;> constructor <;> simp_all <;> grind [RetOk]
      | completing k =>
          simp only [hp] at h; cases h
          unfold sendCompleted notifyR
          split_ifs <;> constructor <;> simp_all <;> grind [RetOk]
  | wTick => simp only [step] at h; cases h; split_ifs <;> constructor <;> simp_all
  | isrSend l =>
      simp only [step] at h; cases h
      unfold isrSend sendCompleted notifyR
      split_ifs <;> constructor <;> assumption
  | isrReceive m =>
      simp only [step] at h; cases h
      unfold isrReceive receiveCompleted notifyW
      split_ifs <;> constructor <;> simp_all
  | giveW =>
      simp only [step, notifyW] at h; cases h
      by_cases hq : s.wN.st = .waiting ∧ s.wPc = .asleep
      · constructor <;> simp_all
      · simp only [if_neg hq]; constructor <;> assumption
  | takeR a st => simp only [step] at h; cases h; split_ifs <;> constructor <;> assumption
  | takeW a st => simp only [step] at h; cases h; split_ifs <;> constructor <;> assumption

/-- **C109.** A send never reports more than it was given, and one with a block time reports
less only if its time ran out: being woken early, for instance by the task's timer, makes it
wait again. -/
theorem C109_send_all_or_late {c : Cfg} {s : St} (h : Reached c s) {len n : Nat} {late : Bool}
    (hn : (len, n, late) ∈ s.wRets) : n ≤ len ∧ (late = true ∨ n = len) := by
  obtain ⟨rN, wN, es, h⟩ := h
  suffices H : ∀ (es : List Ev) (a : St), SInv c a → run c a es = .ok s → SInv c s from
    (H es _ (by constructor <;> simp [create]) h).rets _ hn
  intro es
  induction es with
  | nil => intro a J h; simp only [run] at h; cases h; exact J
  | cons e es ih =>
      intro a J h
      simp only [run] at h
      cases hs : step c a e with
      | error u => rw [hs] at h; cases h
      | ok a1 => rw [hs] at h; exact ih a1 (sinv_step J hs) h

/-! ## Examples -/

/-- The GPS receive buffer (gps.h 35-36): 2047 bytes, trigger level 1, written by the UART
interrupt. -/
def gpsBuf : Cfg := ⟨2047, 1, true, false⟩

/-- The UART transmit buffer, written by a task, read by an interrupt. -/
def uartBuf : Cfg := ⟨10, 1, false, true⟩

/-- The log buffer, between two tasks. -/
def logBuf : Cfg := ⟨10, 1, false, false⟩

def n0 : Notif := ⟨0, .notWaiting⟩

/-- The interrupt comes between registering and going to sleep: the reader does not sleep. -/
example : (run gpsBuf (create n0 n0) [.receive 2048 true, .reader, .isrSend 5, .reader]).map
    (fun s => (s.rPc, s.bytes)) = .ok (.woken, 5) := by decide +kernel

/-- It comes when the reader sleeps: the reader gets the five bytes. -/
example : (run gpsBuf (create ⟨3, .received⟩ n0)
    ([.receive 2048 true, .reader, .reader, .isrSend 5] ++ List.replicate 5 .reader)).map
    (fun s => (s.rPc, s.bytes, s.rRets, s.rN.val)) = .ok (.idle, 0, [(true, 5)], 3) := by
  decide +kernel

/-- Sleeping states with an empty buffer are reached. -/
example : (run gpsBuf (create n0 n0) [.receive 2048 true, .reader, .reader]).map
    (fun s => (s.rPc, s.bytes)) = .ok (.asleep, 0) := by decide +kernel

/-- A full transmit buffer: the writer sleeps, a timer notification wakes it, it waits again
and then sends everything once the interrupt has made room; the notification is still there. -/
example : (run uartBuf (create n0 n0)
    ([.send 10 false] ++ List.replicate 5 (.writer false) ++
     [.send 4 true, .writer false, .writer false, .giveW] ++ List.replicate 5 (.writer false) ++
     [.isrReceive 4] ++ List.replicate 8 (.writer false))).map
    (fun s => (s.bytes, s.wRets.map (·.2), s.wN.val)) =
      .ok (10, [(4, false), (10, true)], 1) := by
  decide +kernel

/-- With a task as writer, a reader can be told of bytes it has read already: it then comes
back with nothing before its time is up. (`C109_wait_ends_with_data` is about interrupts.) -/
example : (run logBuf (create n0 n0)
    ([.send 3 false, .writer false, .writer false, .writer false, .receive 9 true] ++
     List.replicate 3 .reader ++ [.receive 9 true, .reader, .reader, .writer false] ++
     List.replicate 4 .reader)).map (fun s => (s.rPc, s.bytes, s.rRets)) =
      .ok (.idle, 0, [(true, 0), (true, 3)]) := by decide +kernel

end Verif.SbWait
