import Verif.Model.LogStream
import Verif.Props.MsgFrame
import Mathlib.Tactic.ByContra

set_option autoImplicit false

/-!
# C47, C61, C99: the log stream
-/

namespace Verif.LogStream
open MsgFrame FrameSpec

theorem strnlen_from (t junk : List UInt8) (n len : Nat) (hl : len ≤ t.length)
    (ht : ∀ c ∈ t, c ≠ 0) : strnlen (t ++ 0 :: junk) n len = .ok (min t.length (len + n)) := by
  induction n generalizing len with
  | zero =>
    unfold strnlen
    congr 1
    omega
  | succ n ih =>
    unfold strnlen
    by_cases he : len = t.length
    · subst he
      rw [List.getElem?_append_right (le_refl _)]
      simp
    · have hlt : len < t.length := by omega
      rw [List.getElem?_append_left hlt, List.getElem?_eq_getElem hlt]
      dsimp only
      rw [if_neg (ht _ (List.getElem_mem hlt)), ih (len + 1) (by omega)]
      congr 2
      omega

theorem print_string (l : Log) (msg junk : List UInt8) (hm : ∀ c ∈ msg, c ≠ 0) :
    logPrint true l (msg ++ 0 :: junk) =
      let l' := if l.enableSWO then { l with swo := l.swo ++ [if 512 ≤ msg.length then skipped else msg] } else l
      if l'.enableSerial then send l' (msg.take 512) else .ok l' := by
  have hs := strnlen_from msg junk maxMsg 0 (Nat.zero_le _) hm
  rw [Nat.zero_add] at hs
  have htk : (msg ++ 0 :: junk).take (min msg.length maxMsg) = msg.take 512 := by
    rw [List.take_append_of_le_length (Nat.min_le_left _ _)]
    show List.take (min msg.length 512) msg = _
    rw [List.take_eq_take_iff]
    omega
  have htw : (msg ++ 0 :: junk).takeWhile (· ≠ 0) = msg := by
    rw [List.takeWhile_append_of_pos (by simpa using hm)]
    simp
  have hmax : maxMsg = 512 := rfl
  unfold logPrint
  rw [hs]
  dsimp only
  rw [htk, htw]
  simp [hmax]

/-- **When `Log_Print` does not return.** For a C string: exactly when the lock is
obtained, serial logging is on, the message is empty and the stream has room; the VCU
then stops in the failed assertion with interrupts off. -/
theorem C99_returns_iff (ok : Bool) (l : Log) (msg junk : List UInt8) (hm : ∀ c ∈ msg, c ≠ 0) :
    (∀ l', logPrint ok l (msg ++ 0 :: junk) ≠ .ok l') ↔
      ok = true ∧ l.enableSerial = true ∧ msg = [] ∧ l.stream.length < 2047 := by
  have hcap : cap = 2047 := rfl
  cases ok with
  | false => simp [logPrint]
  | true =>
    rw [print_string l msg junk hm]
    obtain ⟨e1, e2, st, sw, ac⟩ := l
    cases e1
    · cases e2 <;> simp
    · have h0 : min (List.take 512 msg).length (2047 - st.length) = 0 ↔ msg = [] ∨ 2047 - st.length = 0 := by
        rw [List.length_take, ← List.length_eq_zero_iff]
        omega
      have key : ∀ sw', (∀ l', send ⟨true, e2, st, sw', ac⟩ (msg.take 512) ≠ .ok l') ↔ msg = [] ∧ st.length < 2047 := by
        intro sw'
        unfold send
        simp only [hcap, h0]
        split_ifs with h1 h2
        · simp; omega
        · simp only [ne_eq, reduceCtorEq, not_false_eq_true, implies_true, true_iff]
          exact ⟨by tauto, by omega⟩
        · simp only [ne_eq, Except.ok.injEq, forall_eq', false_iff]
          tauto
      cases e2 <;> simpa using key _

/-- C99 in full: printing a string returns. -/
def PrintReturns : Prop :=
  ∀ (ok : Bool) (l : Log) (msg junk : List UInt8), (∀ c ∈ msg, c ≠ 0) →
    ∃ l', logPrint ok l (msg ++ 0 :: junk) = .ok l'

/-- **C99 is false**: the empty string halts the VCU in the state after start-up. -/
theorem C99_empty_message_halts :
    logPrint true Sys.start.log [0] = .error .assertFail ∧ ¬ PrintReturns := by
  refine ⟨rfl, ?_⟩
  intro h
  obtain ⟨l', h'⟩ := h true Sys.start.log [] [] (by simp)
  revert h'
  exact (C99_returns_iff true Sys.start.log [] [] (by simp)).mpr ⟨rfl, rfl, rfl, by decide⟩ l'

/-- **C99, what holds**: every non-empty string of any length is printed and the call
returns. -/
theorem C99_partial (ok : Bool) (l : Log) (msg junk : List UInt8) (hm : ∀ c ∈ msg, c ≠ 0) (hne : msg ≠ []) :
    ∃ l', logPrint ok l (msg ++ 0 :: junk) = .ok l' := by
  by_contra hc
  exact hne ((C99_returns_iff ok l msg junk hm).mp (fun l' h => hc ⟨l', h⟩)).2.2.1

/-- `Log_Print` of any C string (whenever it returns, see `C99_returns_iff`): appends to the
stream exactly the longest prefix of the message of at most 512 characters that fits,
after what was there; changes nothing else in the stream; and does nothing at all when
the lock is not obtained. -/
theorem C61_log_print_partial (ok : Bool) (l l' : Log) (msg junk : List UInt8) (hm : ∀ c ∈ msg, c ≠ 0)
    (hr : logPrint ok l (msg ++ 0 :: junk) = .ok l') :
      l'.stream = (if ok ∧ l.enableSerial then
        l.stream ++ msg.take (min 512 (2047 - l.stream.length)) else l.stream) ∧
      l'.accepted = (if ok ∧ l.enableSerial then
        l.accepted ++ msg.take (min 512 (2047 - l.stream.length)) else l.accepted) ∧
      l'.swo = (if ok ∧ l.enableSWO then l.swo ++ [if 512 ≤ msg.length then [0x5B, 0x5D] else msg] else l.swo) ∧
      l'.enableSerial = l.enableSerial ∧ l'.enableSWO = l.enableSWO ∧
      (ok = false → l' = l) := by
  have hcap : cap = 2047 := rfl
  cases ok with
  | false =>
    injection hr with hr
    subst hr
    simp
  | true =>
    rw [print_string l msg junk hm] at hr
    obtain ⟨e1, e2, st, sw, ac⟩ := l
    have hsk : skipped = [0x5B, 0x5D] := rfl
    rw [hsk] at hr
    generalize (if 512 ≤ msg.length then [0x5B, 0x5D] else msg) = x at hr ⊢
    cases e1
    · cases e2 <;> (dsimp only at hr; simp only [if_true, Bool.false_eq_true, if_false, Except.ok.injEq] at hr; subst hr; simp)
    · cases e2 <;> dsimp only [send] at hr <;>
        simp only [if_true, Bool.false_eq_true, if_false, hcap] at hr <;>
        split_ifs at hr with h1 h2 <;> simp only [Except.ok.injEq, reduceCtorEq] at hr <;> subst hr <;>
        simp [h1, List.take_take, Nat.min_comm]

example : ∃ l', logPrint true ⟨true, false, [], [], []⟩ [72, 105, 10, 0, 99] = .ok l' ∧ l'.stream = [72, 105, 10] := by
  obtain ⟨l', h1⟩ := C99_partial true ⟨true, false, [], [], []⟩ [72, 105, 10] [99] (by decide) (by decide)
  exact ⟨l', h1, (C61_log_print_partial true ⟨true, false, [], [], []⟩ l' [72, 105, 10] [99] (by decide) h1).1⟩

/-! ## C47 -/

theorem chunk_frame (f : List UInt8 → UInt32) (t : List UInt8) :
    ∃ frame, (chunk (fun m => some (f m)) t).1 = some frame ∧ Valid f 43 frame ∧
      frame.take 5 = [0x3A, 0x00, 0x02, 0x00, 0x02] ∧
      (frame.drop 5).take 32 = t.take 32 ++ List.replicate (32 - (t.take 32).length) 0 := by
  generalize hd : t.take 32 = d
  have hdl : d.length ≤ 32 := by rw [← hd, List.length_take]; omega
  have hbl : bufLen = 1024 := rfl
  have hpl : (d ++ List.replicate (32 - d.length) (0 : UInt8)).length = 32 := by simp; omega
  have hrl : (List.replicate 43 (0 : UInt8)).length = 43 := List.length_replicate
  obtain ⟨frame, _, _, _, e1, e2, _, _, e3, _⟩ := C33_round_trip f 0x02 0x02 (d ++ List.replicate (32 - d.length) 0)
    (List.replicate 43 0) (by rw [hpl, hrl]) (by rw [hpl]; omega) (fun _ => 0)
  have he := encode_eq (fun m => some (f m)) 0x02 0x02 (d ++ List.replicate (32 - d.length) 0)
    (List.replicate 43 0) (by rw [hpl, hrl])
  rw [e1] at he
  have hinit : initFrame 0x02 0x02 32 (List.replicate 43 0) =
      some ([0x3A, 0x00, 0x02, 0x00, 0x02] ++ (List.replicate 36 0 ++ [0x0D, 0x0A])) := by decide
  have hput : putPayload ([0x3A, 0x00, 0x02, 0x00, 0x02] ++ (List.replicate 36 0 ++ [0x0D, 0x0A])) d =
      putPayload ([0x3A, 0x00, 0x02, 0x00, 0x02] ++ (List.replicate 36 0 ++ [0x0D, 0x0A]))
        (d ++ List.replicate (32 - d.length) 0) := by
    unfold putPayload
    rw [hpl]
    simp only [List.append_assoc]
    congr 2
    have h5 : ([0x3A, 0x00, 0x02, 0x00, 0x02] : List UInt8).length = 5 := rfl
    have k1 : ∀ n, n ≤ 36 → ([0x3A, 0x00, 0x02, 0x00, 0x02] ++ (List.replicate 36 (0 : UInt8) ++ [0x0D, 0x0A])).drop (5 + n) =
        List.replicate (36 - n) 0 ++ [0x0D, 0x0A] := by
      intro n hn
      rw [List.drop_append, h5, List.drop_of_length_le (by rw [h5]; omega), List.nil_append,
        show 5 + n - 5 = n by omega, List.drop_append_of_le_length (by rw [List.length_replicate]; exact hn), List.drop_replicate]
    rw [k1 _ (by omega), k1 32 (by omega), ← List.append_assoc, List.replicate_append_replicate]
    congr 2
    omega
  refine ⟨frame, ?_, ?_, ?_, ?_⟩
  · unfold chunk
    dsimp only
    rw [hd, hinit, ← e1]
    unfold encode
    rw [hpl, hinit]
    simp only [Option.map_some]
    rw [hput]
  · rw [hpl] at e2; exact e2
  · injection he with he
    rw [he]
    rfl
  · rw [hpl] at e3; exact e3

/-- The text of a frame as the PC reads it. -/
def text (frame : List UInt8) : List UInt8 := ((frame.drop 5).take 32).takeWhile (· ≠ 0)

/-- The messages are C strings. -/
def CString : Ev → Prop
  | .print _ mem => ∃ msg junk, mem = msg ++ 0 :: junk ∧ ∀ c ∈ msg, c ≠ 0
  | .round => True

/-- Invariant: frames are valid log frames and their text and the stream make up what was
accepted. -/
structure Inv (f : List UInt8 → UInt32) (s : Sys) : Prop where
  nonzero : ∀ c ∈ s.log.stream, c ≠ 0
  valid : ∀ m ∈ s.frames, ∃ frame, m = some frame ∧ Valid f 43 frame ∧ frame.take 5 = [0x3A, 0x00, 0x02, 0x00, 0x02]
  text : s.log.accepted = s.frames.flatMap (fun m => (m.map text).getD []) ++ s.log.stream
  padded : ∀ frame, some frame ∈ s.frames →
    (frame.drop 5).take 32 = LogStream.text frame ++ List.replicate (32 - (LogStream.text frame).length) 0

theorem step_inv (f : List UInt8 → UInt32) (s s' : Sys) (h : Inv f s) (e : Ev) (he : CString e)
    (hs' : s.step (fun m => some (f m)) e = .ok s') : Inv f s' := by
  cases e with
  | print ok mem =>
    obtain ⟨msg, junk, rfl, hm⟩ := he
    simp only [Sys.step] at hs'
    cases h1 : logPrint ok s.log (msg ++ 0 :: junk) with
    | error u => rw [h1] at hs'; simp at hs'
    | ok l' =>
    rw [h1] at hs'
    injection hs' with hs'
    subst hs'
    obtain ⟨h2, h3, _⟩ := C61_log_print_partial ok s.log l' msg junk hm h1
    have hacc : ∃ d, l'.accepted = s.log.accepted ++ d ∧ l'.stream = s.log.stream ++ d ∧ ∀ c ∈ d, c ≠ 0 := by
      rw [h2, h3]
      split_ifs
      · exact ⟨_, rfl, rfl, fun c hc => hm c (List.mem_of_mem_take hc)⟩
      · exact ⟨[], by simp, by simp, by simp⟩
    obtain ⟨d, a1, a2, a3⟩ := hacc
    refine ⟨?_, h.valid, ?_, h.padded⟩
    · intro c hc
      dsimp only at hc
      rw [a2] at hc
      rcases List.mem_append.mp hc with hc | hc
      · exact h.nonzero c hc
      · exact a3 c hc
    · dsimp only
      rw [a1, a2, h.text, List.append_assoc]
  | round =>
    simp only [Sys.step] at hs'
    split_ifs at hs' with hs
    · injection hs' with hs'
      subst hs'
      exact h
    · injection hs' with hs'
      subst hs'
      obtain ⟨frame, g1, g2, g3, g4⟩ := chunk_frame f s.log.stream
      have ht : text frame = s.log.stream.take 32 := by
        unfold text
        rw [g4, List.takeWhile_append_of_pos]
        · cases 32 - (List.take 32 s.log.stream).length <;> simp [List.replicate_succ]
        · intro c hc
          simpa using h.nonzero c (List.mem_of_mem_take hc)
      refine ⟨?_, ?_, ?_, ?_⟩
      · intro c hc
        exact h.nonzero c (List.mem_of_mem_drop hc)
      · intro m hm
        rcases List.mem_append.mp hm with hm | hm
        · exact h.valid m hm
        · rw [List.mem_singleton] at hm
          exact ⟨frame, by rw [hm, g1], g2, g3⟩
      · dsimp only
        rw [h.text, List.flatMap_append, List.append_assoc]
        congr 1
        rw [g1]
        simp only [List.flatMap_cons, List.flatMap_nil, Option.map_some, Option.getD_some, List.append_nil]
        rw [ht]
        exact (List.take_append_drop 32 _).symm
      · intro fr hm
        rcases List.mem_append.mp hm with hm | hm
        · exact h.padded fr hm
        · rw [List.mem_singleton, g1] at hm
          injection hm with hm
          rw [hm, g4, ht]

theorem run_inv (f : List UInt8 → UInt32) (evs : List Ev) (s s' : Sys) (h : Inv f s) (he : ∀ e ∈ evs, CString e)
    (hr : s.run (fun m => some (f m)) evs = .ok s') : Inv f s' := by
  induction evs generalizing s with
  | nil =>
    simp only [Sys.run, List.foldlM_nil, pure, Except.pure, Except.ok.injEq] at hr
    subst hr
    exact h
  | cons e evs ih =>
    unfold Sys.run at hr ih
    rw [List.foldlM_cons] at hr
    cases h1 : s.step (fun m => some (f m)) e with
    | error u => rw [h1] at hr; simp [bind, Except.bind] at hr
    | ok s1 =>
      rw [h1] at hr
      exact ih s1 (step_inv f s s1 h e (he e (by simp)) h1) (fun x hx => he x (List.mem_cons_of_mem _ hx)) hr

/-- Histories without an empty message do not stop the VCU. -/
theorem run_returns (f : List UInt8 → UInt32) (evs : List Ev) (s : Sys) (he : ∀ e ∈ evs, CString e)
    (hne : ∀ ok mem, Ev.print ok mem ∈ evs → mem[0]? ≠ some 0) :
    ∃ s', s.run (fun m => some (f m)) evs = .ok s' := by
  induction evs generalizing s with
  | nil => exact ⟨s, rfl⟩
  | cons e evs ih =>
    have : ∃ s1, s.step (fun m => some (f m)) e = .ok s1 := by
      cases e with
      | round =>
        unfold Sys.step
        split_ifs <;> exact ⟨_, rfl⟩
      | print ok mem =>
        obtain ⟨msg, junk, rfl, hm⟩ := he _ List.mem_cons_self
        have h0 := hne ok _ List.mem_cons_self
        obtain ⟨l', h1⟩ := C99_partial ok s.log msg junk hm (by rintro rfl; simp at h0)
        exact ⟨{ s with log := l' }, by simp only [Sys.step, h1]⟩
    obtain ⟨s1, h1⟩ := this
    obtain ⟨s2, h2⟩ := ih s1 (fun x hx => he x (List.mem_cons_of_mem _ hx))
      (fun ok mem h => hne ok mem (List.mem_cons_of_mem _ h))
    refine ⟨s2, ?_⟩
    unfold Sys.run at h2 ⊢
    rw [List.foldlM_cons, h1]
    exact h2

theorem rounds_empty (f : List UInt8 → UInt32) (n : Nat) (s : Sys) (hn : s.log.stream.length ≤ 32 * n) :
    ∃ s', s.run (fun m => some (f m)) (List.replicate n .round) = .ok s' ∧ s'.log.stream = [] ∧
      s'.log.accepted = s.log.accepted := by
  induction n generalizing s with
  | zero => exact ⟨s, rfl, List.length_eq_zero_iff.mp (by omega), rfl⟩
  | succ n ih =>
    by_cases hs : s.log.stream = []
    · obtain ⟨s', h1, h2, h3⟩ := ih s (by rw [hs]; simp)
      refine ⟨s', ?_, h2, h3⟩
      have e : s.step (fun m => some (f m)) .round = .ok s := by
        unfold Sys.step
        rw [if_pos hs]
      unfold Sys.run at h1 ⊢
      rw [List.replicate_succ, List.foldlM_cons, e]
      exact h1
    · obtain ⟨s', h1, h2, h3⟩ := ih ⟨{ s.log with stream := (chunk (fun m => some (f m)) s.log.stream).2 },
        s.frames ++ [(chunk (fun m => some (f m)) s.log.stream).1]⟩ (by
          show (s.log.stream.drop 32).length ≤ _
          rw [List.length_drop]; omega)
      refine ⟨s', ?_, h2, h3⟩
      have e : s.step (fun m => some (f m)) .round =
          .ok ⟨{ s.log with stream := (chunk (fun m => some (f m)) s.log.stream).2 },
        s.frames ++ [(chunk (fun m => some (f m)) s.log.stream).1]⟩ := by
        unfold Sys.step
        rw [if_neg hs]
      unfold Sys.run at h1 ⊢
      rw [List.replicate_succ, List.foldlM_cons, e]
      exact h1

/-- For every interleaving of prints and rounds of the flush loop that has not stopped the
VCU (`C47_returns`): all frames are valid log frames for the PC; their text, in order,
followed by what is still in the stream, is exactly the text accepted (characterised by
`C61_log_print_partial`); and finitely many further rounds empty the stream, after which
the frames' text is all of it. -/
theorem C47_log_stream (f : List UInt8 → UInt32) (evs : List Ev) (he : ∀ e ∈ evs, CString e) (s : Sys)
    (h1 : Sys.start.run (fun m => some (f m)) evs = .ok s) :
      (∀ m ∈ s.frames, ∃ frame, m = some frame ∧ Valid f 43 frame ∧ frame.take 5 = [0x3A, 0x00, 0x02, 0x00, 0x02]) ∧
      s.log.accepted = s.frames.flatMap (fun m => (m.map text).getD []) ++ s.log.stream ∧
      ∃ n s', s.run (fun m => some (f m)) (List.replicate n .round) = .ok s' ∧
        s'.log.stream = [] ∧ s'.frames.flatMap (fun m => (m.map text).getD []) = s.log.accepted := by
  have h0 : Inv f Sys.start := ⟨by simp [Sys.start], by simp [Sys.start], rfl, by simp [Sys.start]⟩
  have h2 := run_inv f evs _ s h0 he h1
  obtain ⟨s', g1, g2, g3⟩ := rounds_empty f s.log.stream.length s (by omega)
  have k2 := run_inv f (List.replicate s.log.stream.length .round) s s' h2 (by
    intro e he
    rw [List.eq_of_mem_replicate he]
    trivial) g1
  refine ⟨h2.valid, h2.text, _, s', g1, g2, ?_⟩
  have := k2.text
  rw [g2, g3, List.append_nil] at this
  exact this.symm

/-- Without empty messages every history runs to its end. -/
theorem C47_returns (f : List UInt8 → UInt32) (evs : List Ev) (he : ∀ e ∈ evs, CString e)
    (hne : ∀ ok mem, Ev.print ok mem ∈ evs → mem[0]? ≠ some 0) :
    ∃ s, Sys.start.run (fun m => some (f m)) evs = .ok s := run_returns f evs _ he hne

example : ∃ s, Sys.start.run (fun m => some ((fun _ => 0) m)) [.print true [72, 105, 10, 0], .round, .print true [33, 0]] = .ok s ∧
    s.log.stream = [33] ∧ s.frames.flatMap (fun m => (m.map text).getD []) = [72, 105, 10] := by
  refine ⟨_, rfl, ?_, ?_⟩ <;> decide +kernel

end Verif.LogStream
