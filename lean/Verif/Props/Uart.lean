import Verif.Model.Uart
import Mathlib.Data.List.Perm.Basic
import Mathlib.Data.List.Induction

set_option autoImplicit false

/-!
# C28, C29, C66: UART driver
-/

namespace Verif.Uart

/-- Bytes of the transfer under way that are not on the wire yet. -/
def remaining (s : Tx) : List UInt8 :=
  match s.hw with
  | some (pos, len) => (List.range' pos (len - pos)).map s.dma
  | none => []

/-- C28: the wire carries a prefix of the accepted bytes. -/
def StreamPreserved : Prop :=
  ∀ evs s, run init evs = .ok s → s.wire <+: s.accepted

/-- C28, liveness half: accepted bytes do not wait for ever; when the transmitter
is idle and no call is running, nothing is pending. -/
def NothingStuck : Prop :=
  ∀ evs s, run init evs = .ok s → s.hw = none → s.call = none → s.pending = []

theorem run_append (s : Tx) (a b : List Ev) : run s (a ++ b) = (run s a) >>= fun t => run t b := by
  simp only [run, List.foldlM_append]

theorem run_concat {s s' : Tx} {a : List Ev} {e : Ev} (h : run s (a ++ [e]) = .ok s') :
    ∃ t, run s a = .ok t ∧ step t e = .ok s' := by
  rw [run_append] at h
  cases hr : run s a with
  | error u => rw [hr] at h; simp [bind, Except.bind] at h
  | ok t =>
    rw [hr] at h
    refine ⟨t, rfl, ?_⟩
    simp only [bind, Except.bind, run, pure, Except.pure, List.foldlM_cons, List.foldlM_nil] at h
    cases hs : step t e with
    | error u => rw [hs] at h; simp at h
    | ok v => rw [hs] at h; exact h

theorem copyTo_map (buf : Nat → UInt8) (d : List UInt8) :
    (List.range' 0 d.length).map (copyTo buf d) = d := by
  apply List.ext_getElem
  · simp
  · intro i h1 h2
    simp [copyTo, h2]

/-- Histories in which the hardware accepts every transfer and reports no error,
and messages fit. -/
def Quiet (evs : List Ev) : Prop :=
  Ev.error ∉ evs ∧ (∀ ok, Ev.cplt ok ∈ evs → ok = true) ∧ (∀ ok, Ev.finish ok ∈ evs → ok = true) ∧
  (∀ d, Ev.begin d ∈ evs → d ≠ [])

/-- Invariant of quiet histories. -/
structure Inv (s : Tx) : Prop where
  busy : s.inProgress = true ↔ s.hw.isSome
  le : ∀ p n, s.hw = some (p, n) → p ≤ n
  free : ∀ d, s.call = some (d, false) → s.hw = none
  nonempty : ∀ d b, s.call = some (d, b) → d ≠ []
  cap : s.pending.length ≤ pendingCap
  perm : (s.wire ++ (remaining s ++ s.pending)).Perm s.accepted

theorem quiet_append {a b : List Ev} (h : Quiet (a ++ b)) : Quiet a ∧ Quiet b := by
  obtain ⟨h1, h2, h3, h4⟩ := h
  simp only [List.mem_append] at h1 h2 h3 h4
  exact ⟨⟨fun h => h1 (Or.inl h), fun ok h => h2 ok (Or.inl h), fun ok h => h3 ok (Or.inl h),
      fun d h => h4 d (Or.inl h)⟩,
    fun h => h1 (Or.inr h), fun ok h => h2 ok (Or.inr h), fun ok h => h3 ok (Or.inr h),
      fun d h => h4 d (Or.inr h)⟩

theorem remaining_byte {s : Tx} {pos len : Nat} (hw : s.hw = some (pos, len)) (hlt : pos < len) :
    remaining s = s.dma pos :: (List.range' (pos + 1) (len - (pos + 1))).map s.dma := by
  unfold remaining
  rw [hw]
  simp only
  obtain ⟨k, hk⟩ : ∃ k, len - pos = k + 1 := ⟨len - pos - 1, by omega⟩
  rw [hk, show len - (pos + 1) = k by omega, List.range'_succ]
  rfl

theorem inv_step {s s' : Tx} (hi : Inv s) (e : Ev) (hq : Quiet [e]) (hs : step s e = .ok s') : Inv s' := by
  obtain ⟨hq1, hq2, hq3, hq4⟩ := hq
  cases e with
  | begin d =>
    simp only [step] at hs
    cases hc : s.call with
    | some c => rw [hc] at hs; injection hs with hs; subst hs; exact hi
    | none =>
      rw [hc] at hs
      injection hs with hs; subst hs
      refine ⟨hi.busy, hi.le, ?_, ?_, hi.cap, hi.perm⟩
      · intro d' h
        simp only [Option.some.injEq, Prod.mk.injEq] at h
        have hb := hi.busy
        rw [h.2] at hb
        show s.hw = none
        cases hh : s.hw with
        | none => rfl
        | some x => rw [hh] at hb; simp at hb
      · intro d' b h
        simp only [Option.some.injEq, Prod.mk.injEq] at h
        rw [← h.1]
        exact hq4 d (by simp)
  | error => simp at hq1
  | finish ok =>
    have hok : ok = true := hq3 ok (by simp)
    subst hok
    simp only [step] at hs
    split at hs
    · injection hs with hs; subst hs; exact hi
    · rename_i d hc
      have hd := hi.nonempty d _ hc
      rw [if_neg (by simp [hd])] at hs
      injection hs with hs; subst hs
      refine ⟨hi.busy, hi.le, by simp, by simp, ?_, ?_⟩
      · have := hi.cap
        simp only [List.length_append, List.length_take]; omega
      · have hp := hi.perm
        change (s.wire ++ (remaining s ++ (s.pending ++ _))).Perm (s.accepted ++ _)
        rw [← List.append_assoc, ← List.append_assoc]
        rw [← List.append_assoc] at hp
        exact hp.append_right _
    · rename_i d hc
      have hw := hi.free d hc
      have hd := hi.nonempty d _ hc
      by_cases hl : maxDma < d.length
      · rw [if_pos hl] at hs; simp at hs
      · rw [if_neg hl, if_pos (by simp [hw, hd])] at hs
        injection hs with hs; subst hs
        refine ⟨by simp, ?_, by simp, by simp, hi.cap, ?_⟩
        · intro p n h
          simp only [Option.some.injEq, Prod.mk.injEq] at h
          omega
        · have hp := hi.perm
          have hr : remaining s = [] := by unfold remaining; rw [hw]
          have hr' : ∀ t : Tx, t.dma = copyTo s.dma d → t.hw = some (0, d.length) → remaining t = d := by
            intro t h1 h2
            unfold remaining
            rw [h2]
            simp only [Nat.sub_zero]
            rw [h1, copyTo_map]
          rw [hr' _ rfl rfl]
          rw [hr, List.nil_append] at hp
          dsimp only
          refine List.Perm.trans ?_ (hp.append_right d)
          rw [List.append_assoc]
          exact List.Perm.append_left _ List.perm_append_comm
  | byte =>
    simp only [step] at hs
    split at hs
    · rename_i pos len hw
      split_ifs at hs with hlt
      · injection hs with hs; subst hs
        refine ⟨?_, ?_, ?_, hi.nonempty, hi.cap, ?_⟩
        · have := hi.busy; rw [hw] at this; simpa using this
        · intro p n h
          simp only [Option.some.injEq, Prod.mk.injEq] at h
          omega
        · intro d h
          have := hi.free d h
          rw [hw] at this; simp at this
        · have hp := hi.perm
          rw [remaining_byte hw hlt] at hp
          simp only [remaining]
          simpa using hp
      · injection hs with hs; subst hs; exact hi
    · injection hs with hs; subst hs; exact hi
  | cplt ok =>
    have hok : ok = true := hq2 ok (by simp)
    subst hok
    simp only [step] at hs
    split at hs
    · rename_i pos len hw
      have hbusy : s.inProgress = true := by rw [hi.busy, hw]; rfl
      split_ifs at hs with hpl hpe
      · injection hs with hs; subst hs
        refine ⟨by simp, by simp, by simp, hi.nonempty, hi.cap, ?_⟩
        have hp := hi.perm
        have hr : remaining s = [] := by
          unfold remaining; rw [hw]; simp [hpl]
        rw [hr] at hp
        simpa [remaining] using hp
      · injection hs with hs; subst hs
        have hcap := hi.cap
        have ht : s.pending.take maxDma = s.pending :=
          List.take_of_length_le (by unfold pendingCap at hcap; unfold maxDma; omega)
        have hdr : s.pending.drop maxDma = [] :=
          List.drop_eq_nil_of_le (by unfold pendingCap at hcap; unfold maxDma; omega)
        refine ⟨by simp [hbusy], ?_, ?_, hi.nonempty, by rw [hdr]; simp, ?_⟩
        · intro p n h
          simp only [Option.some.injEq, Prod.mk.injEq] at h
          omega
        · intro d h
          have := hi.free d h
          rw [hw] at this; simp at this
        · have hp := hi.perm
          have hr : remaining s = [] := by
            unfold remaining; rw [hw]; simp [hpl]
          rw [hr] at hp
          simp only [remaining, Nat.sub_zero, ht, hdr, List.append_nil]
          rw [copyTo_map]
          simpa using hp
      · injection hs with hs; subst hs; exact hi
    · injection hs with hs; subst hs; exact hi

/-- **C28, no loss or duplication.** While the hardware accepts every transfer and
reports no error, the bytes on the wire, in the running transfer and pending are
together a permutation of the accepted bytes, for every interleaving of the
calling task with the interrupts. -/
theorem C28_conservation_partial (evs : List Ev) (hq : Quiet evs) (s : Tx) (h : run init evs = .ok s) :
    (s.wire ++ (remaining s ++ s.pending)).Perm s.accepted := by
  suffices H : Inv s from H.perm
  induction evs using List.reverseRecOn generalizing s with
  | nil =>
    simp only [run, List.foldlM_nil, pure, Except.pure, Except.ok.injEq] at h
    subst h
    exact ⟨by simp [init], by simp [init], by simp [init], by simp [init], by simp [init], by simp [init, remaining]⟩
  | append_singleton evs e ih =>
    obtain ⟨t, h1, h2⟩ := run_concat h
    obtain ⟨q1, q2⟩ := quiet_append hq
    exact inv_step (ih q1 t h1) e q2 h2

/-- Uninterrupted operations. -/
inductive Op where
  | send (d : List UInt8)
  | byte
  | cplt
deriving DecidableEq

def Op.evs : Op → List Ev
  | .send d => [.begin d, .finish true]
  | .byte => [.byte]
  | .cplt => [.cplt true]

/-- **C28 when no interrupt falls inside a call** and the hardware reports no
error: at every moment, wire, running transfer and pending bytes together are
exactly the accepted bytes in call order, and pending bytes are always on their
way (a transfer is running). -/
theorem C28_exact_stream_partial (ops : List Op) (hd : ∀ d, Op.send d ∈ ops → d ≠ [] ∧ d.length ≤ maxDma) :
    ∃ s, run init (ops.flatMap Op.evs) = .ok s ∧
      s.wire ++ (remaining s ++ s.pending) = s.accepted ∧
      (s.pending ≠ [] → s.hw.isSome) ∧ s.call = none := by
  suffices H : ∃ s, run init (ops.flatMap Op.evs) = .ok s ∧
      s.wire ++ (remaining s ++ s.pending) = s.accepted ∧
      (s.pending ≠ [] → s.hw.isSome) ∧ s.call = none ∧ (s.inProgress = true ↔ s.hw.isSome) ∧
      (∀ p n, s.hw = some (p, n) → p ≤ n) ∧ s.pending.length ≤ pendingCap by
    obtain ⟨s, h1, h2, h3, h4, -⟩ := H
    exact ⟨s, h1, h2, h3, h4⟩
  induction ops using List.reverseRecOn with
  | nil =>
    exact ⟨init, rfl, by simp [init, remaining], by simp [init], rfl, by simp [init], by simp [init], by simp [init]⟩
  | append_singleton ops o ih =>
    obtain ⟨s, h1, h2, h3, h4, h5, h6, h7⟩ := ih (fun d h => hd d (List.mem_append_left _ h))
    rw [List.flatMap_append, run_append, h1]
    simp only [List.flatMap_cons, List.flatMap_nil, List.append_nil, bind, Except.bind]
    cases o with
    | send d =>
      obtain ⟨hne, hle⟩ := hd d (by simp)
      simp only [Op.evs, run, List.foldlM_cons, List.foldlM_nil, step, h4, bind, Except.bind, pure, Except.pure]
      cases hp : s.inProgress with
      | true =>
        dsimp only
        rw [if_neg (by simp [hne])]
        refine ⟨_, rfl, ?_, ?_, rfl, ?_, h6, ?_⟩
        · change s.wire ++ (remaining s ++ (s.pending ++ _)) = s.accepted ++ _
          rw [← h2]; simp
        · intro _; exact h5.mp hp
        · simpa [hp] using h5
        · simp only [List.length_append, List.length_take]; omega
      | false =>
        have hw : s.hw = none := by
          cases hh : s.hw with
          | none => rfl
          | some x => rw [hh, hp] at h5; simp at h5
        have hpe : s.pending = [] := by
          by_contra hc; have := h3 hc; rw [hw] at this; simp at this
        dsimp only
        rw [if_neg (by omega), if_pos (by simp [hw, hne])]
        refine ⟨_, rfl, ?_, by simp, rfl, by simp, ?_, h7⟩
        · have hr : remaining s = [] := by unfold remaining; rw [hw]
          rw [hr, hpe] at h2
          simp only [remaining, Nat.sub_zero, hpe, List.append_nil]
          rw [copyTo_map, ← h2]
          simp
        · intro p n h
          simp only [Option.some.injEq, Prod.mk.injEq] at h
          omega
    | byte =>
      simp only [Op.evs, run, List.foldlM_cons, List.foldlM_nil, step, bind, Except.bind, pure, Except.pure]
      cases hw : s.hw with
      | none => exact ⟨s, rfl, h2, h3, h4, h5, h6, h7⟩
      | some x =>
        obtain ⟨pos, len⟩ := x
        by_cases hlt : pos < len
        · simp only [hlt, if_true]
          refine ⟨_, rfl, ?_, by simp, h4, ?_, ?_, h7⟩
          · rw [remaining_byte hw hlt] at h2
            simp only [remaining]
            simpa using h2
          · rw [hw] at h5; simpa using h5
          · intro p n h
            simp only [Option.some.injEq, Prod.mk.injEq] at h
            omega
        · simp only [hlt, if_false]
          exact ⟨s, rfl, h2, h3, h4, h5, h6, h7⟩
    | cplt =>
      simp only [Op.evs, run, List.foldlM_cons, List.foldlM_nil, step, bind, Except.bind, pure, Except.pure]
      cases hw : s.hw with
      | none => exact ⟨s, rfl, h2, h3, h4, h5, h6, h7⟩
      | some x =>
        obtain ⟨pos, len⟩ := x
        have hb : s.inProgress = true := by rw [h5, hw]; rfl
        by_cases hpl : pos = len
        · have hr : remaining s = [] := by unfold remaining; rw [hw]; simp [hpl]
          rw [hr] at h2
          by_cases hpe : s.pending = []
          · simp only [hpl, if_true, hpe]
            refine ⟨_, rfl, ?_, by simp, h4, by simp, by simp, by simp⟩
            simpa [remaining, hpe] using h2
          · simp only [hpl, if_true, hpe, if_false]
            have ht : s.pending.take maxDma = s.pending :=
              List.take_of_length_le (by unfold pendingCap at h7; unfold maxDma; omega)
            have hdr : s.pending.drop maxDma = [] :=
              List.drop_eq_nil_of_le (by unfold pendingCap at h7; unfold maxDma; omega)
            refine ⟨_, rfl, ?_, by simp, h4, by simp [hb], ?_, by rw [hdr]; simp⟩
            · simp only [remaining, Nat.sub_zero, ht, hdr, List.append_nil]
              rw [copyTo_map]
              simpa using h2
            · intro p n h
              simp only [Option.some.injEq, Prod.mk.injEq] at h
              omega
        · simp only [hpl, if_false]
          exact ⟨s, rfl, h2, h3, h4, h5, h6, h7⟩

/-- A call loses bytes only where the pending buffer was full: with room for the
message, or with an idle transmitter that accepts it, all of it is accepted. -/
theorem C28_loss_only_when_full {s s1 s2 : Tx} {d : List UInt8} (hc : s.call = none)
    (h1 : step s (.begin d) = .ok s1) (h2 : step s1 (.finish true) = .ok s2) (hd : d ≠ [])
    (hroom : s.inProgress = true → s.pending.length + d.length ≤ 511)
    (hidle : s.inProgress = false → s.hw = none) :
    s2.accepted = s.accepted ++ d := by
  simp only [step, hc] at h1
  injection h1 with h1
  subst h1
  cases hp : s.inProgress with
  | true =>
    simp only [step, hp] at h2
    rw [if_neg (by simp [hd])] at h2
    injection h2 with h2
    subst h2
    have : s.pending.length + d.length ≤ pendingCap := hroom hp
    simp only
    rw [List.take_of_length_le (by omega)]
  | false =>
    simp only [step, hp, hidle hp] at h2
    split_ifs at h2 with h3 h4
    · injection h2 with h2
      subst h2
      rfl
    · simp [hd] at h4

/-- **C28 is false, part one.** The completion interrupt between the test of the
busy flag and the copy leaves the message waiting although the transmitter is
idle. -/
theorem C28_message_stuck : ¬ NothingStuck := by
  intro h
  have := h [.begin [1], .finish true, .byte, .begin [2], .cplt true, .finish true] _ rfl rfl rfl
  exact absurd this (by decide)

/-- **C28 is false, part two.** A later message then overtakes it. -/
theorem C28_overtaking : ¬ StreamPreserved := by
  intro h
  have := h [.begin [1], .finish true, .byte, .begin [2], .cplt true, .finish true,
    .begin [3], .finish true, .byte] _ rfl
  revert this
  decide

/-- **C28 is false, part three.** A receive error (line noise) clears the busy flag
while a transfer runs; the next message overwrites the running transfer's bytes,
is refused with an error, and its bytes are on the wire inside the other message. -/
theorem C28_noise_corrupts_running_message :
    ∃ s, run init [.begin [1, 2, 3, 4], .finish true, .byte, .error, .begin [9, 9, 9, 9],
        .finish true, .byte, .byte, .byte] = .ok s ∧
      s.accepted = [1, 2, 3, 4] ∧ s.wire = [1, 9, 9, 9] := ⟨_, rfl, rfl, rfl⟩

example : ∃ s, run init ([Op.send [1, 2], .byte, .send [3], .byte, .cplt, .byte].flatMap Op.evs) = .ok s ∧
    s.wire = [1, 2, 3] ∧ s.accepted = [1, 2, 3] := ⟨_, rfl, rfl, rfl⟩

/-! ## C29 -/

/-- The pending stream never holds more than 511 bytes, so the completion handler
never copies more than the DMA buffer holds, whatever happens. -/
theorem C29_completion_chunk_fits (evs : List Ev) (s : Tx) (h : run init evs = .ok s) :
    s.pending.length ≤ 511 := by
  show s.pending.length ≤ pendingCap
  induction evs using List.reverseRecOn generalizing s with
  | nil =>
    simp only [run, List.foldlM_nil, pure, Except.pure, Except.ok.injEq] at h
    subst h; simp [init]
  | append_singleton evs e ih =>
    obtain ⟨t, h1, h2⟩ := run_concat h
    have i := ih t h1
    cases e with
    | begin d =>
      simp only [step] at h2
      split at h2 <;> (injection h2 with h2; subst h2; exact i)
    | error => simp only [step] at h2; injection h2 with h2; subst h2; exact i
    | byte =>
      simp only [step] at h2
      split at h2
      · split_ifs at h2 <;> (injection h2 with h2; subst h2; exact i)
      · injection h2 with h2; subst h2; exact i
    | cplt ok =>
      simp only [step] at h2
      split at h2
      · split_ifs at h2
        all_goals (injection h2 with h2; subst h2; first | exact i | (simp only [List.length_drop]; omega))
      · injection h2 with h2; subst h2; exact i
    | finish ok =>
      simp only [step] at h2
      split at h2
      · injection h2 with h2; subst h2; exact i
      · split_ifs at h2
        injection h2 with h2; subst h2
        simp only [List.length_append, List.length_take]; omega
      · split_ifs at h2
        · injection h2 with h2; subst h2; exact i
        · injection h2 with h2; subst h2; exact i

/-- **C29, what holds.** If every message has at least one and at most 512 bytes, no
history overruns the DMA buffer or fails an assertion. -/
theorem C29_safe_partial (evs : List Ev) (hlen : ∀ d, Ev.begin d ∈ evs → d ≠ [] ∧ d.length ≤ maxDma) :
    ∃ s, run init evs = .ok s ∧ ∀ d b, s.call = some (d, b) → d ≠ [] ∧ d.length ≤ maxDma := by
  induction evs using List.reverseRecOn with
  | nil => exact ⟨init, rfl, by simp [init]⟩
  | append_singleton evs e ih =>
    obtain ⟨t, h1, h2⟩ := ih (fun d h => hlen d (List.mem_append_left _ h))
    rw [run_append, h1]
    suffices H : ∃ s, step t e = .ok s ∧ ∀ d b, s.call = some (d, b) → d ≠ [] ∧ d.length ≤ maxDma by
      obtain ⟨s, h3, h4⟩ := H
      exact ⟨s, by simp [run, bind, Except.bind, pure, Except.pure, h3], h4⟩
    cases e with
    | begin d =>
      simp only [step]
      split
      · exact ⟨_, rfl, h2⟩
      · refine ⟨_, rfl, ?_⟩
        intro d' b h
        simp only [Option.some.injEq, Prod.mk.injEq] at h
        rw [← h.1]; exact hlen d (by simp)
    | error => exact ⟨_, rfl, h2⟩
    | byte =>
      simp only [step]
      split
      · split_ifs <;> exact ⟨_, rfl, h2⟩
      · exact ⟨_, rfl, h2⟩
    | cplt ok =>
      simp only [step]
      split
      · split_ifs <;> exact ⟨_, rfl, h2⟩
      · exact ⟨_, rfl, h2⟩
    | finish ok =>
      simp only [step]
      split
      · exact ⟨_, rfl, h2⟩
      · rename_i d hc
        rw [if_neg (by simp [(h2 d _ hc).1])]
        exact ⟨_, rfl, by simp⟩
      · rename_i d hc
        rw [if_neg (by have := h2 d _ hc; omega)]
        split_ifs <;> exact ⟨_, rfl, by simp⟩

/-- **C29 is false**: every message longer than 512 bytes overruns the DMA buffer
of an idle transmitter. -/
theorem C29_overflow (d : List UInt8) (h : 512 < d.length) (ok : Bool) :
    run init [.begin d, .finish ok] = .error .oobWrite := by
  have h : maxDma < d.length := h
  simp [run, step, init, h, bind, Except.bind]

/-- An empty message halts the VCU whenever a transfer runs and the pending stream is not
full. -/
theorem C29_empty_halts (s : Tx) (hc : s.call = none) (hp : s.inProgress = true)
    (hr : s.pending.length < 511) (ok : Bool) : run s [.begin [], .finish ok] = .error .assertFail := by
  have : pendingCap - s.pending.length ≠ 0 := by unfold pendingCap; omega
  simp [run, step, hc, hp, this, bind, Except.bind]

/-! ## C66: reception -/

/-- C66 in full: what is delivered is a prefix of what was received. -/
def ReceivedOnce : Prop :=
  ∀ bursts : List (List UInt8),
    (rxRun ⟨[], []⟩ (bursts.flatMap fun b => b.map RxEv.byte ++ [.idle])).out = bursts.flatten

theorem rx_bytes_small (s : Rx) (b : List UInt8) (h : s.buf.length + b.length < 256) :
    rxRun s (b.map RxEv.byte) = ⟨s.buf ++ b, s.out⟩ := by
  induction b generalizing s with
  | nil => simp [rxRun]
  | cons x b ih =>
    simp only [List.length_cons] at h
    have hs : rxStep s (.byte x) = ⟨s.buf ++ [x], s.out⟩ := by
      simp only [rxStep, List.length_append, List.length_singleton, maxDma]
      rw [if_neg (by omega), if_neg (by omega)]
    have : rxRun s ((x :: b).map RxEv.byte) = rxRun (rxStep s (.byte x)) (b.map RxEv.byte) := rfl
    rw [this, hs, ih _ (by simp; omega)]
    simp

/-- **C66, what holds.** Bursts of fewer than 256 bytes, separated by idle line,
arrive exactly once and in order. -/
theorem C66_short_bursts_partial (bursts : List (List UInt8)) (h : ∀ b ∈ bursts, b.length < 256) :
    (rxRun ⟨[], []⟩ (bursts.flatMap fun b => b.map RxEv.byte ++ [.idle])).out = bursts.flatten := by
  suffices H : ∀ out, rxRun ⟨[], out⟩ (bursts.flatMap fun b => b.map RxEv.byte ++ [.idle]) =
      ⟨[], out ++ bursts.flatten⟩ by rw [H]; simp
  induction bursts with
  | nil => intro out; simp [rxRun]
  | cons b bursts ih =>
    intro out
    have hb := h b (by simp)
    rw [List.flatMap_cons]
    have hsplit : ∀ s e1 e2, rxRun s (e1 ++ e2) = rxRun (rxRun s e1) e2 := by
      intro s e1 e2; simp [rxRun]
    rw [hsplit, hsplit, rx_bytes_small _ b (by simpa using hb)]
    have hidle : rxRun ⟨([] : List UInt8) ++ b, out⟩ [.idle] = ⟨[], out ++ b⟩ := by
      simp only [rxRun, List.foldl_cons, List.foldl_nil, rxStep, List.nil_append]
      split_ifs with he
      · simp [he]
      · rfl
    rw [hidle, ih (fun b' h' => h b' (List.mem_cons_of_mem _ h'))]
    simp

/-- **C66 with receive errors.** A burst of fewer than 256 bytes that ends in a receive error is lost
as a whole; it neither disturbs nor duplicates the others. -/
theorem C66_errors_partial (bursts : List (List UInt8 × Bool)) (h : ∀ b ∈ bursts, b.1.length < 256) :
    (rxRun ⟨[], []⟩ (bursts.flatMap fun b => b.1.map RxEv.byte ++ [if b.2 then .error else .idle])).out =
      ((bursts.filter fun b => !b.2).map Prod.fst).flatten := by
  suffices H : ∀ out, rxRun ⟨[], out⟩
      (bursts.flatMap fun b => b.1.map RxEv.byte ++ [if b.2 then .error else .idle]) =
      ⟨[], out ++ ((bursts.filter fun b => !b.2).map Prod.fst).flatten⟩ by rw [H]; simp
  induction bursts with
  | nil => intro out; simp [rxRun]
  | cons b bursts ih =>
    intro out
    have hb := h b (by simp)
    have hsplit : ∀ s e1 e2, rxRun s (e1 ++ e2) = rxRun (rxRun s e1) e2 := by
      intro s e1 e2; simp [rxRun]
    rw [List.flatMap_cons, hsplit, hsplit, rx_bytes_small _ b.1 (by simpa using hb)]
    obtain ⟨b, err⟩ := b
    have ih' := ih (fun b' h' => h b' (List.mem_cons_of_mem _ h'))
    cases err with
    | true =>
      have he : rxRun ⟨([] : List UInt8) ++ b, out⟩ [.error] = ⟨[], out⟩ := rfl
      simp only [if_true]
      rw [he, ih']
      simp
    | false =>
      have he : rxRun ⟨([] : List UInt8) ++ b, out⟩ [.idle] = ⟨[], out ++ b⟩ := by
        simp only [rxRun, List.foldl_cons, List.foldl_nil, rxStep, List.nil_append]
        split_ifs with he
        · simp [he]
        · rfl
      simp only [Bool.false_eq_true, if_false]
      rw [he, ih']
      simp

example : (rxRun ⟨[], []⟩ ([([1, 2], false), ([3], true), ([4], false)].flatMap fun b =>
    b.1.map RxEv.byte ++ [if b.2 then .error else .idle])).out = [1, 2, 4] := by decide

/-- **C66 is false for every longer burst below 512 bytes**: its first 256 bytes
are delivered twice. -/
theorem C66_half_transfer_duplicates (b : List UInt8) (h1 : 256 ≤ b.length) (h2 : b.length < 512) :
    (rxRun ⟨[], []⟩ (b.map RxEv.byte ++ [.idle])).out = b.take 256 ++ b := by
  obtain ⟨c, x, d, hb, hc⟩ : ∃ c x d, b = c ++ x :: d ∧ c.length = 255 := by
    refine ⟨b.take 255, b[255], b.drop 256, ?_, by simp; omega⟩
    rw [← List.drop_eq_getElem_cons, List.take_append_drop]
  have hsplit : ∀ s e1 e2, rxRun s (e1 ++ e2) = rxRun (rxRun s e1) e2 := by
    intro s e1 e2; simp [rxRun]
  have hlong : ∀ (d : List UInt8) (s : Rx), 256 ≤ s.buf.length → s.buf.length + d.length < 512 →
      rxRun s (d.map RxEv.byte) = ⟨s.buf ++ d, s.out⟩ := by
    intro d
    induction d with
    | nil => intro s _ _; simp [rxRun]
    | cons y d ih =>
      intro s g1 g2
      simp only [List.length_cons] at g2
      have hs : rxStep s (.byte y) = ⟨s.buf ++ [y], s.out⟩ := by
        simp only [rxStep, List.length_append, List.length_singleton, maxDma]
        rw [if_neg (by omega), if_neg (by omega)]
      have : rxRun s ((y :: d).map RxEv.byte) = rxRun (rxStep s (.byte y)) (d.map RxEv.byte) := rfl
      rw [this, hs, ih _ (by simp; omega) (by simp; omega)]
      simp
  have hlen : b.length = 256 + d.length := by rw [hb]; simp; omega
  have htake : b.take 256 = c ++ [x] := by
    rw [hb, show c ++ x :: d = (c ++ [x]) ++ d by simp, List.take_left' (by simp [hc])]
  rw [hsplit, htake]
  conv_lhs => rw [hb]
  rw [List.map_append, hsplit, rx_bytes_small _ c (by simp; omega)]
  have h256 : rxRun ⟨[] ++ c, []⟩ ((x :: d).map RxEv.byte) =
      rxRun ⟨c ++ [x], c ++ [x]⟩ (d.map RxEv.byte) := by
    have : rxRun ⟨[] ++ c, []⟩ ((x :: d).map RxEv.byte) =
        rxRun (rxStep ⟨[] ++ c, []⟩ (.byte x)) (d.map RxEv.byte) := rfl
    rw [this]
    congr 1
    simp [rxStep, hc, maxDma]
  rw [h256, hlong d _ (by simp; omega) (by simp; omega)]
  simp [rxRun, rxStep, hb]

theorem C66_false : ¬ ReceivedOnce := by
  intro h
  obtain ⟨b, hb⟩ : ∃ b : List UInt8, b.length = 256 := ⟨List.replicate 256 0, List.length_replicate⟩
  have h1 := h [b]
  simp only [List.flatMap_cons, List.flatMap_nil, List.append_nil, List.flatten_cons, List.flatten_nil] at h1
  rw [C66_half_transfer_duplicates _ (by omega) (by omega)] at h1
  have := congrArg List.length h1
  rw [List.length_append, List.length_take] at this
  omega

end Verif.Uart
