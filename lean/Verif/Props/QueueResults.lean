import Verif.Props.QueueWait

set_option autoImplicit false

/-!
# C110: what the results of calls mean
-/

namespace Verif.QueueWait

/-- Calls in one direction that reported success. -/
def done {n : Nat} (s : St n) (d : Dir) : Int := ((s.rets.countP fun r => decide (r.2 = (d, true)) : Nat) : Int)

/-- What interrupts put in and take out on the way, together. -/
def byIsr {n : Nat} (c : Cfg n) : St n → List (Ev n) → Int
  | _, [] => 0
  | s, .isrSend :: es => ((step c s .isrSend).msgs - s.msgs : Int) + byIsr c (step c s .isrSend) es
  | s, .isrRecv :: es => ((step c s .isrRecv).msgs - s.msgs : Int) + byIsr c (step c s .isrRecv) es
  | s, e :: es => byIsr c (step c s e) es

/-- Messages, less successful sends, plus successful receives. -/
def bal {n : Nat} (s : St n) : Int := s.msgs - done s .send + done s .recv

theorem bal_attempt {n : Nat} (c : Cfg n) (s : St n) (t : Fin n) (d : Dir) : bal (attempt c s t d) = bal s := by
  cases d <;> simp only [attempt] <;> split_ifs <;> simp [bal, done, ret, go, List.countP_cons] <;> omega

theorem bal_task {n : Nat} (c : Cfg n) (s : St n) (t : Fin n) (b : Bool) : bal (taskStep c s t b) = bal s := by
  unfold taskStep
  cases s.pc t with
  | idle => rfl
  | try_ d => exact bal_attempt c s t d
  | suspend d => rfl
  | lock d => rfl
  | check d => cases d <;> dsimp only <;> split_ifs <;> rfl
  | place d => cases d <;> rfl
  | unlockTx d w => rfl
  | unlockRx d w => rfl
  | resume d w =>
    cases w with
    | placed => rfl
    | retry => rfl
    | expired =>
      cases d with
      | send => simp [bal, done, ret, List.countP_cons]
      | recv => rfl
  | blocked d =>
    cases d <;> dsimp only <;> split_ifs <;> first | rfl | exact bal_attempt c s t _
  | last =>
    dsimp only
    split_ifs
    · simp [bal, done, ret, List.countP_cons]
    · rfl

/-- **C110, the results.** What is in the queue is what was put in at the start, what the calls that reported success
have sent and received, and what interrupts have moved. So a call that reports success has moved exactly one message and a
call that reports failure none. -/
theorem C110_results {n m : Nat} (c : Cfg n) (es : List (Ev n)) :
    ((run c (create n m) es).msgs : Int) =
      m + done (run c (create n m) es) .send - done (run c (create n m) es) .recv + byIsr c (create n m) es := by
  have key : ∀ (es : List (Ev n)) (s : St n), bal (run c s es) = bal s + byIsr c s es := by
    intro es
    induction es with
    | nil => intro s; simp [run, byIsr]
    | cons e es ih =>
      intro s
      have h := ih (step c s e)
      cases e with
      | call t d b =>
        have : bal (step c s (.call t d b)) = bal s := by
          simp only [step]; split_ifs <;> rfl
        simp only [run, byIsr]
        omega
      | step t b =>
        have : bal (step c s (.step t b)) = bal s := by
          simp only [step]
          split_ifs
          · exact bal_task c s t b
          · rfl
        simp only [run, byIsr]
        omega
      | tick t =>
        have : bal (step c s (.tick t)) = bal s := by
          simp only [step]
          split_ifs
          · split <;> rfl
          · rfl
        simp only [run, byIsr]
        omega
      | isrSend =>
        have : (step c s .isrSend).rets = s.rets := by
          simp only [step]; split_ifs <;> rfl
        simp only [run, byIsr]
        simp only [bal, done, this] at h ⊢
        omega
      | isrRecv =>
        have : (step c s .isrRecv).rets = s.rets := by
          simp only [step]; split_ifs <;> rfl
        simp only [run, byIsr]
        simp only [bal, done, this] at h ⊢
        omega
  have h := key es (create n m)
  have h0 : bal (create n m) = m := by simp [bal, done, create]
  rw [h0] at h
  simp only [bal] at h
  omega

/-- A send into a mutex that is free fails at once and moves nothing; a receive then succeeds. -/
example :
    let s := run mutex (create 2 1) [.call 0 .send false, .step 0 false, .call 1 .recv false, .step 1 false]
    (s.msgs, s.rets) = (0, [(1, .recv, true), (0, .send, false)]) := by decide +kernel

end Verif.QueueWait
