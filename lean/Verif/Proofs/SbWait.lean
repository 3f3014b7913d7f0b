import Verif.Model.SbWait
import Mathlib.Tactic.SplitIfs

set_option autoImplicit false

/-!
# Invariant of waiting on a stream buffer
-/

namespace Verif.SbWait

/-- The writer has written and has not finished telling the reader. -/
def WPc.telling : WPc → Bool
  | .wrote _ => true
  | .completing _ => true
  | _ => false

/-- The reader has taken bytes out and has not finished telling the writer. -/
def RPc.telling : RPc → Bool
  | .completing _ => true
  | _ => false

/-- The reader is between registering and unregistering. -/
def RPc.mayBeRegistered : RPc → Bool
  | .registered | .asleep | .woken | .unregister => true
  | _ => false

def WPc.mayBeRegistered : WPc → Bool
  | .registered | .asleep | .woken | .unregister => true
  | _ => false

structure Inv (c : Cfg) (s : St) : Prop where
  cap : s.bytes ≤ c.cap
  rWait : s.rWait = true → s.rPc.mayBeRegistered = true
  wWait : s.wWait = true → s.wPc.mayBeRegistered = true
  rIsr : c.rIsr = true → s.rPc = .idle
  wIsr : c.wIsr = true → s.wPc = .idle
  rAsleep : s.rPc = .asleep → s.rN.st = .waiting ∧ s.rWait = true ∧
    (s.bytes < c.trig ∨ s.wPc.telling = true)
  rReg : s.rPc = .registered → s.rN.st = .received ∨
    (s.rWait = true ∧ (s.bytes < c.trig ∨ s.wPc.telling = true))
  wAsleep : s.wPc = .asleep → s.wN.st = .waiting ∧ s.wWait = true ∧
    (c.cap - s.bytes < s.wLen ∨ s.rPc.telling = true)
  wReg : s.wPc = .registered → s.wN.st = .received ∨
    (s.wWait = true ∧ (c.cap - s.bytes < s.wLen ∨ s.rPc.telling = true))
  reading : ∀ a, s.rPc = .reading a → a ≤ s.bytes
  space : s.wPc ≠ .idle → s.wSpace ≤ c.cap - s.bytes ∨ s.wPc = .check ∨ s.wPc.telling = true

theorem inv_create (c : Cfg) (rN wN : Notif) : Inv c (create rN wN) := by
  constructor <;> simp [create]

theorem waitEnter_val (n : Notif) : (waitEnter n).1.val = n.val := by
  unfold waitEnter; split_ifs <;> simp

theorem waitLeave_val (n : Notif) : (waitLeave n).val = n.val := by
  unfold waitLeave; split_ifs <;> simp

theorem stateClear_val (n : Notif) : (stateClear n).val = n.val := by
  unfold stateClear; split_ifs <;> rfl

theorem stateClear_st (n : Notif) : (stateClear n).st ≠ .received := by
  unfold stateClear; split_ifs with h
  · simp
  · exact h

theorem inv_receive {c : Cfg} {s : St} (I : Inv c s) (max : Nat) (b : Bool) {s' : St}
    (h : step c s (.receive max b) = .ok s') : Inv c s' := by
  simp only [step] at h
  by_cases hc : c.rIsr = false ∧ s.rPc = .idle
  · rw [if_pos hc] at h; cases h
    obtain ⟨h1, h2⟩ := hc
    obtain ⟨a1, a2, a3, a4, a5, a6, a7, a8, a9, a10, a11⟩ := I
    cases b <;> constructor <;> simp_all [RPc.telling, RPc.mayBeRegistered]
  · rw [if_neg hc] at h; cases h; exact I

theorem inv_send {c : Cfg} {s : St} (I : Inv c s) (len : Nat) (b : Bool) {s' : St}
    (h : step c s (.send len b) = .ok s') : Inv c s' := by
  simp only [step] at h
  by_cases hc : c.wIsr = false ∧ s.wPc = .idle
  · rw [if_pos hc] at h; cases h
    obtain ⟨h1, h2⟩ := hc
    obtain ⟨a1, a2, a3, a4, a5, a6, a7, a8, a9, a10, a11⟩ := I
    cases b <;> constructor <;> simp_all [WPc.telling, WPc.mayBeRegistered]
  · rw [if_neg hc] at h; cases h; exact I

theorem inv_reader {c : Cfg} (hc : 0 < c.trig) {s : St} (I : Inv c s) {s' : St}
    (h : readerStep s = .ok s') : Inv c s' := by
  have hclr := stateClear_st s.rN
  obtain ⟨a1, a2, a3, a4, a5, a6, a7, a8, a9, a10, a11⟩ := I
  unfold readerStep at h
  cases hp : s.rPc with
  | idle => simp only [hp] at h; cases h; constructor <;> assumption
  | check =>
      simp only [hp] at h
      split_ifs at h <;> cases h <;>
      constructor <;> simp_all [RPc.telling, RPc.mayBeRegistered] 
  | registered =>
      simp only [hp] at h; cases h
      constructor <;> simp_all [RPc.telling, RPc.mayBeRegistered, waitEnter] <;> grind
  | asleep => simp only [hp] at h; cases h; constructor <;> assumption
  | woken =>
      simp only [hp] at h; cases h
      constructor <;> simp_all [RPc.telling, RPc.mayBeRegistered]
  | unregister =>
      simp only [hp] at h; cases h
      constructor <;> simp_all [RPc.telling, RPc.mayBeRegistered]
  | recheck =>
      simp only [hp] at h; cases h
      constructor <;> simp_all [RPc.telling, RPc.mayBeRegistered]
  | reading a =>
      simp only [hp] at h
      split_ifs at h <;> cases h <;>
      constructor <;> simp_all [RPc.telling, RPc.mayBeRegistered] <;> grind
  | completing k =>
      simp only [hp] at h; cases h
      unfold receiveCompleted notifyW
      constructor <;> split_ifs <;>
        simp_all [RPc.telling, RPc.mayBeRegistered, WPc.telling, WPc.mayBeRegistered] <;> grind

theorem inv_writer {c : Cfg} {s : St} (I : Inv c s) {late : Bool} {s' : St}
    (h : writerStep c s late = .ok s') : Inv c s' := by
  have hclr := stateClear_st s.wN
  obtain ⟨a1, a2, a3, a4, a5, a6, a7, a8, a9, a10, a11⟩ := I
  unfold writerStep at h
  cases hp : s.wPc with
  | idle => simp only [hp] at h; cases h; constructor <;> assumption
  | check =>
      simp only [hp] at h
      split_ifs at h <;> cases h <;>
      constructor <;> simp_all [WPc.telling, WPc.mayBeRegistered] 
  | registered =>
      simp only [hp] at h; cases h
      constructor <;> simp_all [WPc.telling, WPc.mayBeRegistered, waitEnter] <;> grind
  | asleep => simp only [hp] at h; cases h; constructor <;> assumption
  | woken =>
      simp only [hp] at h; cases h
      constructor <;> simp_all [WPc.telling, WPc.mayBeRegistered]
  | unregister =>
      simp only [hp] at h; cases h
      constructor <;> simp_all [WPc.telling, WPc.mayBeRegistered]
  | expiry =>
      simp only [hp] at h; cases h
      constructor <;> simp_all [WPc.telling, WPc.mayBeRegistered] <;> grind
  | sizing =>
      simp only [hp] at h; cases h
      constructor <;> simp_all [WPc.telling, WPc.mayBeRegistered]
      split_ifs <;> omega
  | writing =>
      simp only [hp] at h
      split_ifs at h <;> cases h <;>
      constructor <;> simp_all [WPc.telling, WPc.mayBeRegistered] <;> grind
  | wrote k =>
      simp only [hp] at h
      split_ifs at h <;> cases h <;>
      constructor <;> simp_all [WPc.telling, WPc.mayBeRegistered]
  | completing k =>
      simp only [hp] at h; cases h
      unfold sendCompleted notifyR
      constructor <;> split_ifs <;>
        simp_all [RPc.telling, RPc.mayBeRegistered, WPc.telling, WPc.mayBeRegistered] <;> grind

theorem inv_isrSend {c : Cfg} {s : St} (I : Inv c s) (hw : c.wIsr = true) (len : Nat) :
    Inv c (isrSend c s len) := by
  unfold isrSend
  by_cases h0 : ¬ 0 < min len (c.cap - s.bytes)
  · rw [if_neg h0]; exact I
  have h0 := Decidable.not_not.mp h0
  rw [if_pos h0]
  obtain ⟨a1, a2, a3, a4, a5, a6, a7, a8, a9, a10, a11⟩ := I
  have a5 := a5 hw
  generalize hk : min len (c.cap - s.bytes) = k at *
  have hk2 : k ≤ c.cap - s.bytes := by omega
  have hb : s.bytes + k ≤ c.cap := by omega
  by_cases ht : c.trig ≤ s.bytes + k
  · rw [if_pos ht]
    unfold sendCompleted notifyR
    by_cases hr : s.rWait = true
    · rw [if_pos hr]
      cases hp : s.rPc <;> cases hst : s.rN.st <;> constructor <;>
        simp_all [RPc.telling, RPc.mayBeRegistered, WPc.telling, WPc.mayBeRegistered]
    · rw [if_neg hr]
      cases hp : s.rPc <;> constructor <;>
        simp_all [RPc.telling, RPc.mayBeRegistered, WPc.telling, WPc.mayBeRegistered]
      omega
  · rw [if_neg ht]
    cases hp : s.rPc <;> constructor <;>
      simp_all [RPc.telling, RPc.mayBeRegistered, WPc.telling, WPc.mayBeRegistered] <;> grind

theorem inv_isrReceive {c : Cfg} {s : St} (I : Inv c s) (hw : c.rIsr = true) (max : Nat) :
    Inv c (isrReceive s max) := by
  unfold isrReceive
  by_cases h0 : ¬ (0 < s.bytes ∧ 0 < min max s.bytes)
  · rw [if_neg h0]; exact I
  have h0 := Decidable.not_not.mp h0
  rw [if_pos h0]
  obtain ⟨a1, a2, a3, a4, a5, a6, a7, a8, a9, a10, a11⟩ := I
  have a4 := a4 hw
  generalize hk : min max s.bytes = k at *
  have hk2 : k ≤ s.bytes := by omega
  have hb : s.bytes - k ≤ c.cap := by omega
  unfold receiveCompleted notifyW
  by_cases hr : s.wWait = true
  · rw [if_pos hr]
    cases hp : s.wPc <;> cases hst : s.wN.st <;> constructor <;>
      simp_all [RPc.telling, RPc.mayBeRegistered, WPc.telling, WPc.mayBeRegistered] <;> omega
  · rw [if_neg hr]
    cases hp : s.wPc <;> constructor <;>
      simp_all [RPc.telling, RPc.mayBeRegistered, WPc.telling, WPc.mayBeRegistered] <;> omega

theorem inv_step {c : Cfg} (hc : 0 < c.trig) {s : St} (I : Inv c s) {e : Ev} {s' : St}
    (h : step c s e = .ok s') : Inv c s' := by
  cases e with
  | receive m b => exact inv_receive I m b h
  | send l b => exact inv_send I l b h
  | reader => exact inv_reader hc I h
  | writer l => exact inv_writer I h
  | rTick =>
      obtain ⟨a1, a2, a3, a4, a5, a6, a7, a8, a9, a10, a11⟩ := I
      simp only [step] at h; cases h
      constructor <;> split_ifs <;> simp_all [RPc.telling, RPc.mayBeRegistered]
  | wTick =>
      obtain ⟨a1, a2, a3, a4, a5, a6, a7, a8, a9, a10, a11⟩ := I
      simp only [step] at h; cases h
      constructor <;> split_ifs <;> simp_all [WPc.telling, WPc.mayBeRegistered]
  | isrSend len =>
      simp only [step] at h; cases h
      by_cases hw : c.wIsr = true
      · rw [if_pos hw]; exact inv_isrSend I hw len
      · rw [if_neg hw]; exact I
  | isrReceive max =>
      simp only [step] at h; cases h
      by_cases hw : c.rIsr = true
      · rw [if_pos hw]; exact inv_isrReceive I hw max
      · rw [if_neg hw]; exact I
  | giveR =>
      obtain ⟨a1, a2, a3, a4, a5, a6, a7, a8, a9, a10, a11⟩ := I
      simp only [step] at h; cases h
      unfold notifyR
      constructor <;> 
        simp_all [RPc.telling, RPc.mayBeRegistered, WPc.telling, WPc.mayBeRegistered] <;> grind
  | giveW =>
      obtain ⟨a1, a2, a3, a4, a5, a6, a7, a8, a9, a10, a11⟩ := I
      simp only [step] at h; cases h
      unfold notifyW
      constructor <;> 
        simp_all [RPc.telling, RPc.mayBeRegistered, WPc.telling, WPc.mayBeRegistered] <;> grind
  | takeR a st =>
      obtain ⟨a1, a2, a3, a4, a5, a6, a7, a8, a9, a10, a11⟩ := I
      simp only [step] at h; cases h
      constructor <;> split_ifs <;> simp_all
  | takeW a st =>
      obtain ⟨a1, a2, a3, a4, a5, a6, a7, a8, a9, a10, a11⟩ := I
      simp only [step] at h; cases h
      constructor <;> split_ifs <;> simp_all

theorem inv_run {c : Cfg} (hc : 0 < c.trig) (es : List Ev) {s s' : St} (I : Inv c s)
    (h : run c s es = .ok s') : Inv c s' := by
  induction es generalizing s with
  | nil => simp only [run] at h; cases h; exact I
  | cons e es ih =>
      simp only [run] at h
      cases hs : step c s e with
      | error u => rw [hs] at h; cases h
      | ok s1 => rw [hs] at h; exact ih (inv_step hc I hs) h

/-- The code's assertions hold. -/
theorem step_ok {c : Cfg} {s : St} (I : Inv c s) (e : Ev) : ∃ s', step c s e = .ok s' := by
  obtain ⟨a1, a2, a3, a4, a5, a6, a7, a8, a9, a10, a11⟩ := I
  cases e <;> simp only [step] <;> try exact ⟨_, rfl⟩
  · split_ifs <;> exact ⟨_, rfl⟩
  · unfold readerStep
    cases hp : s.rPc <;> simp only <;> try exact ⟨_, rfl⟩
    · split_ifs with h1 h2
      · have := a2 h2; rw [hp] at this; simp [RPc.mayBeRegistered] at this
      · exact ⟨_, rfl⟩
      · exact ⟨_, rfl⟩
    · split_ifs <;> exact ⟨_, rfl⟩
  · split_ifs <;> exact ⟨_, rfl⟩
  · unfold writerStep
    cases hp : s.wPc <;> simp only <;> try exact ⟨_, rfl⟩
    · split_ifs with h1 h2
      · have := a3 h2; rw [hp] at this; simp [WPc.mayBeRegistered] at this
      · exact ⟨_, rfl⟩
      · exact ⟨_, rfl⟩
    · split_ifs <;> exact ⟨_, rfl⟩
    · split_ifs <;> exact ⟨_, rfl⟩

end Verif.SbWait
