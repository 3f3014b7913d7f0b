import Verif.Model.Spi
import Mathlib.Tactic.ByContra
import Mathlib.Data.Fin.Basic

set_option autoImplicit false

/-!
# SPI: lock release (C59)
-/

namespace Verif.Spi

theorem upd_same (g : Bus → Bool) (b : Bus) (v : Bool) : upd g b v b = v := by simp [upd]

theorem upd_other (g : Bus → Bool) {b c : Bus} (v : Bool) (h : c ≠ b) : upd g b v c = g c := by
  simp [upd, h]

/-- Where the lock of bus `b` is: available, with the running transfer, or with a queued
completion. -/
def tok (s : St) (b : Bus) : Nat := (s.sem b).toNat + (s.active b).toNat + s.queue.count b

/-- No lock exists twice, and the notifications cover the queue. -/
def InvLe (s : St) : Prop := (∀ b, tok s b ≤ 1) ∧ s.queue.length ≤ s.notified ∧ s.mutex = true

theorem length_counts (l : List Bus) :
    l.length = l.count 0 + l.count 1 + l.count 2 + l.count 3 := by
  induction l with
  | nil => rfl
  | cons b l ih =>
    have hb : ∀ b : Bus, ([b] : List Bus).count 0 + [b].count 1 + [b].count 2 + [b].count 3 = 1 := by
      decide
    have h := hb b
    rw [show b :: l = [b] ++ l from rfl, List.length_append]
    simp only [List.count_append, List.length_singleton]
    omega

theorem queue_bound {s : St} (h : InvLe s) : s.queue.length < queueLen := by
  have h0 := h.1 0
  have h1 := h.1 1
  have h2 := h.1 2
  have h3 := h.1 3
  simp only [tok] at h0 h1 h2 h3
  rw [length_counts]
  unfold queueLen
  omega

theorem drain_inv : ∀ (n : Nat) (s : St), (∀ b, tok s b ≤ 1) →
    (∀ b, tok (drain n s) b = tok s b) ∧ (drain n s).mutex = s.mutex ∧
      (drain n s).active = s.active ∧
      (drain n s).notified = s.notified ∧ (drain n s).queue.length = s.queue.length - n
  | 0, s, _ => ⟨fun _ => rfl, rfl, rfl, rfl, rfl⟩
  | n + 1, s, h => by
    unfold drain
    cases hq : s.queue with
    | nil =>
      dsimp only
      exact ⟨fun _ => rfl, rfl, rfl, rfl, by rw [hq]; simp⟩
    | cons b rest =>
      dsimp only
      have h' : ∀ c, tok { s with queue := rest, sem := upd s.sem b true } c = tok s c := by
        intro c
        have hc := h c
        simp only [tok, hq, List.count_cons] at hc ⊢
        by_cases hcb : c = b
        · subst hcb
          rw [upd_same]
          simp only [BEq.rfl, if_true] at hc ⊢
          cases hs : s.sem c
          · simp only [Bool.toNat_true, Bool.toNat_false]; omega
          · rw [hs] at hc; simp only [Bool.toNat_true] at hc; omega
        · rw [upd_other _ _ hcb]
          have : (b == c) = false := by simp; exact fun e => hcb e.symm
          rw [this]
          simp
      obtain ⟨h1, h2, h3, h4, h5⟩ :=
        drain_inv n { s with queue := rest, sem := upd s.sem b true } (fun c => by rw [h']; exact h c)
      refine ⟨fun c => by rw [h1, h'], h2, h3, h4, ?_⟩
      rw [h5]
      simp

/-- Events in which every transfer could be started. -/
def Started : Ev → Prop
  | .send _ hal => hal = .ok
  | _ => True

theorem step_inv {s : St} {e : Ev} (h : InvLe s) :
    InvLe (step s e) ∧ (Started e → ∀ b, tok (step s e) b = tok s b) := by
  obtain ⟨h1, h2, h3⟩ := h
  cases e with
  | send b hal =>
    show InvLe (transmitReceive s b hal).2 ∧ (_ → ∀ c, tok (transmitReceive s b hal).2 c = _)
    unfold transmitReceive
    cases hs : s.sem b with
    | false => exact ⟨⟨h1, h2, h3⟩, fun _ _ => rfl⟩
    | true =>
      simp only [Bool.not_true, Bool.false_eq_true, if_false]
      by_cases hh : hal = .ok
      · rw [if_neg (by simp [hh])]
        have key : ∀ c, tok { s with sem := upd s.sem b false, active := upd s.active b true } c
            = tok s c := by
          intro c
          have hc := h1 c
          simp only [tok] at hc ⊢
          by_cases hcb : c = b
          · subst hcb
            rw [upd_same, upd_same, hs]
            rw [hs] at hc
            cases ha : s.active c
            · simp
            · rw [ha] at hc; simp only [Bool.toNat_true] at hc; omega
          · rw [upd_other _ _ hcb, upd_other _ _ hcb]
        exact ⟨⟨fun c => by rw [key]; exact h1 c, h2, h3⟩, fun _ => key⟩
      · rw [if_pos hh]
        refine ⟨⟨fun c => ?_, h2, h3⟩, fun he => absurd he hh⟩
        have hc := h1 c
        simp only [tok] at hc ⊢
        by_cases hcb : c = b
        · subst hcb
          rw [upd_same]
          simp only [Bool.toNat_false]
          omega
        · rw [upd_other _ _ hcb]; exact hc
  | blocking len hal =>
    show InvLe (transmitReceiveBlocking s len hal).2 ∧
      (_ → ∀ c, tok (transmitReceiveBlocking s len hal).2 c = _)
    unfold transmitReceiveBlocking
    split
    · exact ⟨⟨h1, h2, h3⟩, fun _ _ => rfl⟩
    · split
      · exact ⟨⟨h1, h2, h3⟩, fun _ _ => rfl⟩
      · dsimp only
        split
        · exact ⟨⟨h1, h2, rfl⟩, fun _ _ => rfl⟩
        · exact ⟨⟨h1, h2, rfl⟩, fun _ _ => rfl⟩
  | complete b =>
    show InvLe (complete s b) ∧ (_ → ∀ c, tok (complete s b) c = _)
    unfold complete
    cases ha : s.active b with
    | false =>
      rw [if_neg (by decide)]
      exact ⟨⟨h1, h2, h3⟩, fun _ _ => rfl⟩
    | true =>
      have hb := queue_bound ⟨h1, h2, h3⟩
      simp only [if_true]
      rw [if_pos hb]
      have key : ∀ c, tok { s with active := upd s.active b false, queue := s.queue ++ [b], notified := s.notified + 1 } c = tok s c := by
        intro c
        simp only [tok, List.count_append]
        by_cases hcb : c = b
        · subst hcb
          rw [upd_same, ha]
          simp only [List.count_singleton_self, Bool.toNat_true, Bool.toNat_false]
          omega
        · rw [upd_other _ _ hcb]
          have : ([b] : List Bus).count c = 0 := by
            rw [List.count_eq_zero]
            simpa using hcb
          rw [this]
          rfl
      refine ⟨⟨fun c => by rw [key]; exact h1 c, ?_, h3⟩, fun _ => key⟩
      simp only [List.length_append, List.length_singleton]; omega
  | rxTask =>
    show InvLe (rxTask s) ∧ (_ → ∀ c, tok (rxTask s) c = _)
    unfold rxTask
    obtain ⟨g1, g2, _, g3, g4⟩ := drain_inv s.notified { s with notified := s.notified - 1 } h1
    refine ⟨⟨fun c => by rw [g1]; exact h1 c, ?_, by rw [g2]; exact h3⟩, fun _ c => by rw [g1]; rfl⟩
    rw [g3, g4]
    dsimp only
    omega

theorem run_inv : ∀ (es : List Ev) (s : St), InvLe s → InvLe (run s es)
  | [], _, h => h
  | e :: es, s, h => run_inv es (step s e) (step_inv h).1

theorem run_tok : ∀ (es : List Ev) (s : St), InvLe s → (∀ e ∈ es, Started e) →
    ∀ b, tok (run s es) b = tok s b
  | [], _, _, _, _ => rfl
  | e :: es, s, h, he, b =>
    (run_tok es (step s e) (step_inv h).1 (fun e' h' => he e' (by simp [h'])) b).trans
      ((step_inv h).2 (he e (by simp)) b)

theorem start_inv : InvLe start := ⟨fun _ => Nat.le_refl _, Nat.le_refl _, rfl⟩

/-- **C59 for SPI, when every transfer starts.** After every history in which no transfer failed
to start, a bus without a running transfer is free again once the callback task has run; the lock
of the blocking call is free after every history. -/
theorem C59_spi_partial (es : List Ev) :
    (run start es).mutex = true ∧
    ((∀ e ∈ es, Started e) → ∀ b, (run start es).active b = false →
      (step (run start es) .rxTask).sem b = true) := by
  have hi := run_inv es start start_inv
  refine ⟨hi.2.2, fun he b hb => ?_⟩
  show (rxTask _).sem b = true
  unfold rxTask
  obtain ⟨g1, _, ga, _, g4⟩ := drain_inv (run start es).notified
    { run start es with notified := (run start es).notified - 1 } hi.1
  have hq : (drain (run start es).notified
    { run start es with notified := (run start es).notified - 1 }).queue = [] := by
    apply List.eq_nil_of_length_eq_zero
    rw [g4]
    have := hi.2.1
    dsimp only
    omega
  have hc := g1 b
  have ht : tok { run start es with notified := (run start es).notified - 1 } b = 1 :=
    run_tok es start start_inv he b
  rw [ht] at hc
  simp only [tok, hq, List.count_nil, ga, hb] at hc
  by_contra hn
  simp [hn] at hc

/-- The lock of the bus is lost: taken, no transfer under way, no completion queued. -/
def Lost (s : St) (b : Bus) : Prop := s.sem b = false ∧ s.active b = false ∧ b ∉ s.queue

theorem drain_lost (b : Bus) : ∀ (n : Nat) (s : St), Lost s b → Lost (drain n s) b
  | 0, _, h => h
  | n + 1, s, h => by
    unfold drain
    cases hq : s.queue with
    | nil => exact h
    | cons c rest =>
      dsimp only
      apply drain_lost b n
      obtain ⟨h1, h2, h3⟩ := h
      rw [hq] at h3
      have hne : b ≠ c := fun e => h3 (by simp [e])
      exact ⟨by dsimp only; rw [upd_other _ _ hne]; exact h1, h2, fun hm => h3 (List.mem_cons_of_mem _ hm)⟩

theorem step_lost {s : St} {b : Bus} (h : Lost s b) (e : Ev) : Lost (step s e) b := by
  obtain ⟨h1, h2, h3⟩ := h
  cases e with
  | send c hal =>
    show Lost (transmitReceive s c hal).2 b
    unfold transmitReceive
    cases hs : s.sem c with
    | false => exact ⟨h1, h2, h3⟩
    | true =>
      have hne : b ≠ c := fun e => by rw [e] at h1; rw [h1] at hs; cases hs
      simp only [Bool.not_true, Bool.false_eq_true, if_false]
      split
      · exact ⟨by dsimp only; rw [upd_other _ _ hne]; exact h1, h2, h3⟩
      · exact ⟨by dsimp only; rw [upd_other _ _ hne]; exact h1,
          by dsimp only; rw [upd_other _ _ hne]; exact h2, h3⟩
  | blocking len hal =>
    show Lost (transmitReceiveBlocking s len hal).2 b
    unfold transmitReceiveBlocking
    split
    · exact ⟨h1, h2, h3⟩
    · split
      · exact ⟨h1, h2, h3⟩
      · dsimp only
        split <;> exact ⟨h1, h2, h3⟩
  | complete c =>
    show Lost (complete s c) b
    unfold complete
    cases ha : s.active c with
    | false => exact ⟨h1, h2, h3⟩
    | true =>
      have hne : b ≠ c := fun e => by rw [e] at h2; rw [h2] at ha; cases ha
      simp only [if_true]
      split
      · exact ⟨h1, by dsimp only; rw [upd_other _ _ hne]; exact h2, by simp [h3, hne]⟩
      · exact ⟨h1, by dsimp only; rw [upd_other _ _ hne]; exact h2, h3⟩
  | rxTask => exact drain_lost b _ _ ⟨h1, h2, h3⟩

theorem run_lost (b : Bus) : ∀ (es : List Ev) (s : St), Lost s b → Lost (run s es) b
  | [], _, h => h
  | e :: es, s, h => run_lost b es (step s e) (step_lost h e)

theorem busy_of_taken {s : St} {b : Bus} (h : s.sem b = false) (hal : Hal) :
    transmitReceive s b hal = (errorBusy, s) := by
  unfold transmitReceive
  rw [h]
  rfl

/-- **C59 is false for SPI.** Whenever an asynchronous transfer fails to start on a bus, every
later asynchronous transfer on that bus, after whatever has happened before and since, is refused
as busy. -/
theorem C59_spi_lost (pre : List Ev) (b : Bus) (hal hal' : Hal)
    (hf : (transmitReceive (run start pre) b hal).1 = errorTx) (es : List Ev) :
    (transmitReceive (run (transmitReceive (run start pre) b hal).2 es) b hal').1
      = errorBusy := by
  have hi := run_inv pre start start_inv
  have hl : Lost (transmitReceive (run start pre) b hal).2 b := by
    have hb := hi.1 b
    unfold transmitReceive at hf ⊢
    unfold tok at hb
    cases hs : (run start pre).sem b with
    | false => rw [hs] at hf; simp [errorBusy, errorTx] at hf
    | true =>
      rw [hs] at hf hb
      simp only [Bool.toNat_true] at hb
      simp only [Bool.not_true, Bool.false_eq_true, if_false] at hf ⊢
      split
      · refine ⟨by dsimp only; rw [upd_same], ?_, ?_⟩
        · dsimp only
          cases ha : (run start pre).active b with
          | false => rfl
          | true => rw [ha] at hb; simp only [Bool.toNat_true] at hb; omega
        · dsimp only
          intro hm
          have := List.count_pos_iff.mpr hm
          omega
      · rename_i hh
        rw [if_neg hh] at hf
        simp [ok, errorTx] at hf
  rw [busy_of_taken (run_lost b es _ hl).1]

/-- A timeout of the blocking call is reported as an invalid bus, for every state and length that
reaches the hardware; the lock is released. -/
theorem C59_blocking_released (s : St) (len : UInt16) (hal : Hal) (hm : s.mutex = true) :
    (transmitReceiveBlocking s len hal).2 = s ∧
      (len ≤ 16 → (transmitReceiveBlocking s len .timeout).1 = errorInvalidBus) := by
  obtain ⟨a, b, c, d, e⟩ := s
  cases hm
  constructor
  · unfold transmitReceiveBlocking
    split
    · rfl
    · simp only [Bool.not_true, Bool.false_eq_true, if_false]
      split <;> rfl
  · intro hl
    unfold transmitReceiveBlocking
    rw [if_neg (by
      intro h
      rw [UInt16.lt_iff_toNat_lt] at h
      rw [UInt16.le_iff_toNat_le] at hl
      omega)]
    simp [Hal.code, errorInvalidBus]

/-- The ordinary round: send, complete, callback task, send again. -/
example : (transmitReceive (run start [.send 1 .ok, .complete 1, .rxTask]) 1 .ok).1 = ok := by
  decide +kernel

/-- A failed start, then ten rounds of the callback task: still busy. -/
example : (transmitReceive (run start (.send 1 .busy :: List.replicate 10 .rxTask)) 1 .ok).1 =
    errorBusy := by decide +kernel

end Verif.Spi
