import Verif.Props.VehicleFault
import Verif.Props.PcRequests
import Verif.Props.Term
import Verif.Props.Pdm
import Mathlib.Data.List.GetD

set_option autoImplicit false

/-!
# Only a bad terminal line leads to undefined behaviour (C131)
-/

namespace Verif.Term
open MsgFrame TermSpec

/-- Number of blanks (space or tab) and newlines. -/
def separators (x : List UInt8) : Nat := (x.filter fun c => c = 32 || c = 9 || c = 10).length

/-- The text in the terminal's buffer is one of the two kinds that are known to break the terminal
(C42): nine separators or more, or `help` with two separators or more (so that it may have exactly one argument). -/
def Risky (x : List UInt8) : Prop := 9 ≤ separators x ∨ (help <+: x ∧ 2 ≤ separators x)

theorem separators_eq (x : List UInt8) : separators x = x.countP isSep := by
  unfold separators
  rw [List.countP_eq_length_filter]
  congr 1
  apply List.filter_congr
  intro c _
  unfold isSep
  by_cases h1 : c = 32 <;> by_cases h2 : c = 9 <;> by_cases h3 : c = 10 <;> simp [h1, h2, h3]

/-- After some characters of a line: the first argument is the beginning of the line. -/
structure First (seen : List UInt8) (t : Tok) : Prop where
  row : ∃ w, w <+: seen ∧ (∀ j, t.args 0 j = w.getD j 0) ∧ (t.nArgs = 0 → w = seen ∧ t.argIdx = seen.length)
  few : t.nArgs ≤ seen.countP isSep
  ws : t.ws = true → t.nArgs ≠ 0

theorem first_step {seen : List UInt8} {t t' : Tok} {c : UInt8} (h : First seen t)
    (hs : t.step c = .ok t') : First (seen ++ [c]) t' := by
  obtain ⟨⟨w, hw, hr, h0⟩, hf, hws⟩ := h
  have hp : w <+: seen ++ [c] := hw.trans (List.prefix_append _ _)
  have hcp : (seen ++ [c]).countP isSep = seen.countP isSep + [c].countP isSep := List.countP_append
  unfold Tok.step at hs
  by_cases h1 : c = 0x20 ∨ c = 0x09
  · rw [if_pos h1] at hs
    have hsep : [c].countP isSep = 1 := by
      rcases h1 with rfl | rfl <;> decide
    cases hw' : t.ws with
    | false =>
      rw [hw'] at hs
      cases hs
      exact ⟨⟨w, hp, hr, fun h => (by cases h)⟩, by rw [hcp, hsep]; show t.nArgs + 1 ≤ _; omega,
        fun _ h => (by cases h)⟩
    | true =>
      rw [hw'] at hs
      cases hs
      exact ⟨⟨w, hp, hr, fun h => absurd h (hws hw')⟩, by rw [hcp]; show t.nArgs ≤ _; omega, fun _ => hws hw'⟩
  · rw [if_neg h1] at hs
    by_cases h2 : c = 0x0A
    · rw [if_pos h2] at hs
      cases hs
      have hsep : [c].countP isSep = 1 := by subst h2; decide
      exact ⟨⟨w, hp, hr, fun h => (by cases h)⟩, by rw [hcp, hsep]; show t.nArgs + 1 ≤ _; omega,
        fun _ h => (by cases h)⟩
    · rw [if_neg h2] at hs
      split_ifs at hs
      cases hs
      refine ⟨?_, by rw [hcp]; show t.nArgs ≤ _; omega, fun h => (by cases h)⟩
      by_cases hn : t.nArgs = 0
      · obtain ⟨rfl, hi⟩ := h0 hn
        refine ⟨w ++ [c], List.prefix_rfl, fun j => ?_, fun _ => ⟨rfl, by simp [hi]⟩⟩
        show (if 0 = t.nArgs ∧ j = t.argIdx then c else t.args 0 j) = _
        rw [hi, hr]
        by_cases hj : j = w.length
        · rw [if_pos ⟨hn.symm, hj⟩, hj]; simp
        · rw [if_neg (fun h => hj h.2)]
          rcases Nat.lt_or_gt_of_ne hj with hj | hj
          · rw [List.getD_append _ _ _ _ hj]
          · rw [List.getD_eq_default _ _ (by omega), List.getD_eq_default _ _ (by simp; omega)]
      · refine ⟨w, hp, fun j => ?_, fun h => absurd h hn⟩
        show (if 0 = t.nArgs ∧ j = t.argIdx then c else t.args 0 j) = _
        rw [if_neg (fun h => hn h.1.symm)]
        exact hr j

theorem first_fold (l : List UInt8) : ∀ (seen : List UInt8) (t t' : Tok), First seen t →
    l.foldlM Tok.step t = .ok t' → First (seen ++ l) t' := by
  induction l with
  | nil =>
    intro seen t t' h hs
    cases hs
    simpa using h
  | cons c l ih =>
    intro seen t t' h hs
    cases h1 : t.step c with
    | error u => rw [List.foldlM_cons, h1] at hs; cases hs
    | ok t1 =>
      rw [foldlM_cons_ok h1] at hs
      have := ih (seen ++ [c]) t1 t' (first_step h h1) hs
      simpa using this

/-- Of the commands only `help` with one argument can use a missing command. -/
theorem null_help {c : Call} (h : processCommand c commands = .error .nullDeref) :
    strEq (c.argv 0) (str "help") = true ∧ c.argc = 2 := by
  unfold commands at h
  unfold processCommand at h
  dsimp only at h
  by_cases hh : strEq (c.argv 0) (str "help") = true
  · refine ⟨hh, ?_⟩
    by_contra hc
    rw [if_pos hh] at h
    have h1 : ∃ es, run1 .help c = .ok es := by
      show ∃ es, cmdHelp c = .ok es
      unfold cmdHelp
      split_ifs <;> exact ⟨_, rfl⟩
    obtain ⟨es, h1⟩ := h1
    rw [h1] at h
    unfold processCommand processCommand processCommand run1 at h
    dsimp only at h
    revert h
    split_ifs <;> intro h <;> cases h
  · rw [if_neg hh] at h
    unfold processCommand processCommand processCommand run1 at h
    dsimp only at h
    revert h
    split_ifs <;> intro h <;> cases h

theorem strEq_help {w : List UInt8} {row : Nat → UInt8} (hr : ∀ j, row j = w.getD j 0)
    (h : strEq row (str "help") = true) : help <+: w := by
  have hs : str "help" = help := names_eq.1
  rw [hs] at h
  unfold strEq at h
  rw [List.all_eq_true] at h
  have g : ∀ i < 4, w.getD i 0 = help.getD i 0 := by
    intro i hi
    have := h i (List.mem_range.mpr (by show i < 5; omega))
    rw [← hr]
    exact eq_of_beq this
  have e0 := g 0 (by decide); have e1 := g 1 (by decide); have e2 := g 2 (by decide); have e3 := g 3 (by decide)
  match w, e0, e1, e2, e3 with
  | [], e0, _, _, _ => cases e0
  | [_], _, e1, _, _ => cases e1
  | [_, _], _, _, e2, _ => cases e2
  | [_, _, _], _, _, _, e3 => cases e3
  | a :: b :: c :: d :: r, e0, e1, e2, e3 =>
    have e0 : a = 104 := e0
    have e1 : b = 101 := e1
    have e2 : c = 108 := e2
    have e3 : d = 112 := e3
    subst e0 e1 e2 e3
    exact ⟨r, rfl⟩

theorem null_line {l : List UInt8} {c : Call} (ht : tokenise l = .ok c)
    (h : processCommand c commands = .error .nullDeref) : help <+: l ∧ 2 ≤ l.countP isSep := by
  unfold tokenise at ht
  cases hf : l.foldlM Tok.step Tok.start with
  | error u => rw [hf] at ht; cases ht
  | ok t =>
    rw [hf] at ht
    cases ht
    have := first_fold l [] Tok.start t
      ⟨⟨[], List.prefix_rfl, fun _ => rfl, fun _ => ⟨rfl, rfl⟩⟩, Nat.zero_le _, fun h => (by cases h)⟩ hf
    obtain ⟨⟨w, hw, hr, -⟩, hn, -⟩ := this
    obtain ⟨h1, h2⟩ := null_help h
    refine ⟨(strEq_help hr h1).trans hw, ?_⟩
    have h2 : t.nArgs = 2 := h2
    simpa [h2] using hn

theorem proc_null (l : List UInt8) : ∀ p : Proc, (p.cmdBuf ++ l).countP isSep ≤ 8 →
    p.cmdBuf.length + l.length ≤ 64 → l.foldlM Proc.step p = .error .nullDeref →
    help <+: p.cmdBuf ++ l ∧ 2 ≤ (p.cmdBuf ++ l).countP isSep := by
  induction l with
  | nil => intro p _ _ h; cases h
  | cons c l ih =>
    intro p hs hl h
    have happ : p.cmdBuf ++ c :: l = (p.cmdBuf ++ [c]) ++ l := by simp
    rw [happ] at hs ⊢
    rw [List.length_cons] at hl
    cases h1 : p.step c with
    | error u =>
      unfold Proc.step at h1
      rw [if_neg (by show ¬ 64 ≤ _; omega)] at h1
      dsimp only at h1
      split_ifs at h1 with hc
      subst hc
      have hb : (p.cmdBuf ++ [10]).countP isSep ≤ 8 := le_trans (by rw [List.countP_append (l₂ := l)]; omega) hs
      have hb' : p.cmdBuf.countP isSep ≤ 7 := by
        rw [List.countP_append] at hb
        have : [(10 : UInt8)].countP isSep = 1 := by decide
        omega
      obtain ⟨call, hcall⟩ := tokenise_safe p.cmdBuf hb' (by omega)
      rw [hcall] at h1
      dsimp only at h1
      cases he : processCommand call commands with
      | ok es => rw [he] at h1; cases h1
      | error u' =>
        have hu : u' = .nullDeref := by
          rcases processCommand_cases call commands with ⟨es, g⟩ | g
          · rw [g] at he; cases he
          · rw [g] at he; cases he; rfl
        subst hu
        obtain ⟨k1, k2⟩ := null_line hcall he
        exact ⟨k1.trans (List.prefix_append _ _), by rw [List.countP_append]; omega⟩
    | ok q =>
      rw [foldlM_cons_ok h1] at h
      have hq : q.cmdBuf = p.cmdBuf ++ [c] := by
        unfold Proc.step at h1
        split_ifs at h1 with h2
        · dsimp only at h1
          split at h1
          · cases h1
          · split at h1
            · cases h1
            · cases h1; rfl
        · cases h1; rfl
      rw [← hq] at hs ⊢
      exact ih q hs (by rw [hq]; simp; omega) h

/-- A text that is not risky is handled. -/
theorem recv_safe (t : Term) (p : List UInt8) (h : ¬ Risky (content t ++ text p)) :
    ∃ l t', recv t p = .ok (l, t') := by
  unfold Risky at h
  rw [separators_eq] at h
  have h8 : (content t ++ text p).countP isSep ≤ 8 := by omega
  rcases C42_safe_partial t p h8 with ⟨l, t', e, -⟩ | e
  · exact ⟨l, t', e⟩
  · exfalso
    apply h
    right
    unfold recv at e
    split_ifs at e with h1
    dsimp only at e
    split_ifs at e
    have htl := text_length p
    have hb : bufLen = 64 := rfl
    unfold processBuffer at e
    dsimp only at e
    have hst : slice (store t.buf t.next (text p)) 0 (t.next + (text p).length) = content t ++ text p :=
      store_content t (text p)
    have hst' : slice (store t.buf t.next (List.takeWhile (· ≠ 0) p)) 0
        (t.next + (List.takeWhile (· ≠ 0) p).length) = content t ++ text p := hst
    rw [hst'] at e
    cases hf : (content t ++ text p).foldlM Proc.step ⟨[], 0, false, 0, ⟨[], []⟩⟩ with
    | ok q => rw [hf] at e; cases e
    | error u =>
      rw [hf] at e
      cases e
      have := proc_null _ ⟨[], 0, false, 0, ⟨[], []⟩⟩ (by simpa using h8)
        (by simp [content_length]; omega) hf
      simpa using this

end Verif.Term

namespace Verif.Vehicle
open InvDrv

/-- Texts the PC interface still has to print fit into a frame (`Term.C45_frame_partial`). -/
def Prints (l : List PcAct) : Prop := ∀ t, PcAct.print t ∈ l → t.length ≤ 243

/-- Invariant of every run. -/
structure Safe (cfg : Config) (m0 : FaultMgr.Internal) (s : St) : Prop where
  mgr : ∃ h, Inv cfg m0 h s
  drive : ∃ d, Rel s d ∧ Drive.Inv d
  channels : s.channels = some Pdm.shippedPins
  number : s.numChannels = 6
  dec : PcReq.Ready s.dec
  prints : Prints s.todo
  off : s.control = false → s.todo = []

/-- Switching a power channel. -/
theorem setPower_ok {s : St} (hc : s.channels = some Pdm.shippedPins) (hn : s.numChannels = 6)
    (c : Nat) (on lock : Bool) : ∃ s', setPower s c on lock = .ok s' := by
  have g : Pdm.Good ⟨s.channels, s.numChannels, s.vd.glv.pdmChState.toList, s.level⟩ Pdm.shippedPins :=
    ⟨hc, hn, by decide, by simp [Pdm.init, hc, hn, Pdm.maxChannels], by simp [Pdm.maxChannels]⟩
  obtain ⟨r, s', e, -⟩ := Pdm.C55_refused_no_effect _ _ g ⟨UInt8.ofNat c, on, lock⟩
  unfold setPower
  rw [e]
  exact ⟨_, rfl⟩

/-- What the PC interface does leaves its configuration alone. -/
theorem setPower_frame {s s' : St} {c : Nat} {on lock : Bool} (h : setPower s c on lock = .ok s') :
    s'.numChannels = s.numChannels ∧ s'.dec = s.dec ∧ s'.todo = s.todo ∧ s'.control = s.control := by
  unfold setPower at h
  split at h
  · cases h
  · cases h; exact ⟨rfl, rfl, rfl, rfl⟩

/-- The event does not reach undefined behaviour. -/
def Fine (s : St) (e : Ev) : Prop := ∃ s' fs, step s e = .ok (s', fs)

/-- The event is the execution of a terminal message with a risky text. -/
def Bad (s : St) (e : Ev) : Prop :=
  ∃ lock bs rest, e = .pcAct lock ∧ s.todo = .terminal bs :: rest ∧
    Term.Risky (Term.content s.term ++ Term.text bs)

/-- Assumptions on an event: values are floats, batches have the size the task asks for. -/
def Real : Ev → Prop
  | .write d => F32.IsFloat d.inputs.accel
  | .pcBatch b _ => b.length ≤ 8
  | _ => True

theorem step_fine {cfg : Config} {m0 : FaultMgr.Internal} {s : St} (h : Safe cfg m0 s) (e : Ev)
    (hr : Real e) : Fine s e ∨ Bad s e := by
  obtain ⟨hh, hi⟩ := h.mgr
  obtain ⟨d, hrel, hd⟩ := h.drive
  cases e with
  | write v => exact .inl ⟨_, _, rfl⟩
  | copy ok =>
    left
    unfold Fine
    simp only [step]
    by_cases hc : s.status = none ∧ s.pending = []
    · rw [if_pos hc, StateMgr.fmStepObj_ok cfg _ _ hi.d hi.conf]
      exact ⟨_, _, rfl⟩
    · rw [if_neg hc]
      exact ⟨_, _, rfl⟩
  | handle ok =>
    left
    unfold Fine
    simp only [step]
    cases hs : s.status with
    | none => exact ⟨_, _, rfl⟩
    | some f =>
      dsimp only
      rw [if_neg (by simp [hi.i, hi.c, hi.t])]
      exact ⟨_, _, rfl⟩
  | call en =>
    left
    unfold Fine
    simp only [step]
    cases hp : s.pending with
    | nil => exact ⟨_, _, rfl⟩
    | cons o os =>
      dsimp only
      unfold applyOut
      cases o with
      | ecuError b => exact ⟨_, _, rfl⟩
      | motorDirection b => exact ⟨_, _, rfl⟩
      | torqueEnabled b => exact ⟨_, _, rfl⟩
      | enableInverter =>
        obtain ⟨r, hr, -⟩ := Drive.enable_ok s.cmd en (by rw [← hrel.cmd]; exact hd.noDischarge)
        simp only [Drive.apply, hr]
        exact ⟨_, _, rfl⟩
  | throttle ok en =>
    left
    obtain ⟨d', fs, hs, -⟩ := Drive.step_ok d hd (.throttle (if ok then some s.vd.inputs.accel else none) en)
      (by
        intro a en' he
        cases ok with
        | false => cases he
        | true => cases he; exact hi.float)
    simp only [Drive.step, hrel.thr, hrel.cmd] at hs
    unfold Fine
    simp only [step]
    cases hx : Drive.issue s.cmd en
        (Throttle.step s.thr (.task (if ok then some s.vd.inputs.accel else none))).2 with
    | error u => rw [hx] at hs; cases hs
    | ok r => exact ⟨_, _, rfl⟩
  | pcBatch b crc =>
    left
    unfold Fine
    simp only [step]
    cases ht : s.todo with
    | cons a as => exact ⟨_, _, rfl⟩
    | nil =>
      obtain ⟨m, d', e, -⟩ := PcReq.batch_spec crc h.dec hr
      dsimp only
      rw [e]
      exact ⟨_, _, rfl⟩
  | pcAct lock =>
    unfold Fine Bad
    simp only [step]
    cases ht : s.todo with
    | nil => exact .inl ⟨_, _, rfl⟩
    | cons a as =>
      dsimp only
      cases a with
      | ecuError b => exact .inl ⟨_, _, rfl⟩
      | print t => exact .inl ⟨_, _, rfl⟩
      | power c b =>
        obtain ⟨s', e⟩ := setPower_ok (s := { s with todo := as }) h.channels h.number c b lock
        left
        simp only [act]
        rw [e]
        exact ⟨_, _, rfl⟩
      | terminal bs =>
        by_cases hk : Term.Risky (Term.content s.term ++ Term.text bs)
        · exact .inr ⟨lock, bs, as, rfl, rfl, hk⟩
        · obtain ⟨l, t', e⟩ := Term.recv_safe s.term bs hk
          left
          simp only [act]
          rw [e]
          exact ⟨_, _, rfl⟩

theorem ofTerm_prints {l : List Term.Eff} (h : ∀ e ∈ l, Term.Short e) : Prints (l.map ofTerm) := by
  intro t ht
  obtain ⟨e, he, h1⟩ := List.mem_map.mp ht
  cases e with
  | print m => cases h1; exact h _ he
  | ecuError b => cases h1
  | power c b => cases h1

theorem ofReq_prints (l : List PcReq.Eff) : Prints (l.map ofReq) := by
  intro t ht
  obtain ⟨e, he, h1⟩ := List.mem_map.mp ht
  cases e <;> cases h1

theorem step_safe {cfg : Config} {m0 : FaultMgr.Internal} {s s' : St} {fs : List Sent}
    (h : Safe cfg m0 s) (e : Ev) (hr : Real e) (hs : step s e = .ok (s', fs)) :
    Safe cfg m0 s' ∧ s'.control = s.control ∧ ∀ f ∈ fs, Drive.FrameOk f := by
  obtain ⟨hh, hi⟩ := h.mgr
  obtain ⟨d, hrel, hd⟩ := h.drive
  obtain ⟨hi', ds, d', hrun, hrel', hfl, -⟩ := step_sim hi hrel
    (fun v he => by subst he; exact hr) hs
  obtain ⟨d'', fs', hrun', hd', hfo, -⟩ := Drive.run_ok ds d hd hfl
  rw [hrun] at hrun'
  cases hrun'
  have base : ∀ {t : St}, t = s' → t.channels = s.channels → t.numChannels = s.numChannels →
      PcReq.Ready t.dec → Prints t.todo → t.control = s.control → (t.control = false → t.todo = []) →
      Safe cfg m0 s' ∧ s'.control = s.control ∧ ∀ f ∈ fs, Drive.FrameOk f := by
    rintro t rfl h1 h2 h3 h4 h5 h6
    exact ⟨⟨⟨_, hi'⟩, ⟨d', hrel', hd'⟩, h1.trans h.channels, h2.trans h.number, h3, h4, h6⟩, h5, hfo⟩
  cases e with
  | write v => simp only [step] at hs; cases hs; exact base rfl rfl rfl h.dec h.prints rfl h.off
  | copy ok =>
    simp only [step] at hs
    by_cases hc : s.status = none ∧ s.pending = []
    · rw [if_pos hc] at hs
      split at hs
      · cases hs
      · cases hs; exact base rfl rfl rfl h.dec h.prints rfl h.off
    · rw [if_neg hc] at hs
      cases hs; exact base rfl rfl rfl h.dec h.prints rfl h.off
  | handle ok =>
    simp only [step] at hs
    split at hs
    · cases hs; exact base rfl rfl rfl h.dec h.prints rfl h.off
    · split at hs
      · cases hs
      cases hs; exact base rfl rfl rfl h.dec h.prints rfl h.off
  | call en =>
    simp only [step] at hs
    split at hs
    · cases hs; exact base rfl rfl rfl h.dec h.prints rfl h.off
    · unfold applyOut at hs
      split at hs
      · cases hs
      · cases hs; exact base rfl rfl rfl h.dec h.prints rfl h.off
  | throttle ok en =>
    simp only [step] at hs
    split at hs
    · cases hs
    · cases hs; exact base rfl rfl rfl h.dec h.prints rfl h.off
  | pcBatch b crc =>
    simp only [step] at hs
    split at hs
    · cases hs; exact base rfl rfl rfl h.dec h.prints rfl h.off
    · rename_i ht
      obtain ⟨m, d1, e, hd1, -⟩ := PcReq.batch_spec crc h.dec hr
      rw [e] at hs
      dsimp only at hs
      cases hs
      refine base rfl rfl rfl hd1 (ofReq_prints _) rfl (fun hc => ?_)
      have hc : s.control = false := hc
      show ((m.toList.flatMap (PcReq.handleMessage s.control)).map ofReq) = []
      rw [hc]
      cases m <;> simp [PcReq.handleMessage]
  | pcAct lock =>
    simp only [step] at hs
    split at hs
    · cases hs; exact base rfl rfl rfl h.dec h.prints rfl h.off
    · rename_i a as ht
      have hp : Prints as := fun t hm => h.prints t (by rw [ht]; exact List.mem_cons_of_mem _ hm)
      have hoff : s.control = false → as = [] := fun hc => by
        have := h.off hc
        rw [ht] at this
        cases this
      cases a with
      | ecuError b => simp only [act] at hs; cases hs; exact base rfl rfl rfl h.dec hp rfl hoff
      | print t => simp only [act] at hs; cases hs; exact base rfl rfl rfl h.dec hp rfl hoff
      | power c b =>
        simp only [act] at hs
        split at hs
        · cases hs
        · rename_i s1 hs1
          cases hs
          obtain ⟨-, -, hch, -⟩ := setPower_same hs1
          obtain ⟨h1, h2, h3, h4⟩ := setPower_frame hs1
          refine base rfl hch h1 (by rw [h2]; exact h.dec) (by rw [h3]; exact hp) h4 (fun hc => ?_)
          rw [h3]
          exact hoff (h4 ▸ hc)
      | terminal bs =>
        simp only [act] at hs
        cases hrc : Term.recv s.term bs with
        | error u => rw [hrc] at hs; cases hs
        | ok q =>
          obtain ⟨l, t'⟩ := q
          rw [hrc] at hs
          dsimp only at hs
          cases hs
          refine base rfl rfl rfl h.dec ?_ rfl (fun hc => ?_)
          · intro t hm
            rcases List.mem_append.mp hm with hm | hm
            · exact ofTerm_prints (Term.recv_short _ _ _ _ hrc) t hm
            · exact hp t hm
          · have := h.off hc
            rw [ht] at this
            cases this

/-- A run ends well, or up to some event, which executes a terminal message with a risky text. -/
theorem run_safe {cfg : Config} {m0 : FaultMgr.Internal} : ∀ (es : List Ev) (s : St), Safe cfg m0 s →
    (∀ e ∈ es, Real e) →
    (∃ s' fs, run s es = .ok (s', fs) ∧ Safe cfg m0 s' ∧ s'.control = s.control ∧ ∀ f ∈ fs, Drive.FrameOk f) ∨
    ∃ es1 e es2 s1 f1, es = es1 ++ e :: es2 ∧ run s es1 = .ok (s1, f1) ∧ Bad s1 e ∧ s1.control = s.control ∧
      Safe cfg m0 s1
  | [], s, h, _ => .inl ⟨s, [], rfl, h, rfl, fun _ hm => (by cases hm)⟩
  | e :: es, s, h, hr => by
    rcases step_fine h e (hr e List.mem_cons_self) with ⟨s1, f1, hs⟩ | hb
    · obtain ⟨h1, hc, hf⟩ := step_safe h e (hr e List.mem_cons_self) hs
      rcases run_safe es s1 h1 (fun x hx => hr x (List.mem_cons_of_mem _ hx)) with
        ⟨s2, f2, hrun, h2, hc2, hf2⟩ | ⟨a, x, b, s2, f2, rfl, hrun, hb, hc2, h2⟩
      · refine .inl ⟨s2, f1 ++ f2, by simp [run, hs, hrun], h2, hc2.trans hc, fun f hm => ?_⟩
        rcases List.mem_append.mp hm with hm | hm
        · exact hf f hm
        · exact hf2 f hm
      · exact .inr ⟨e :: a, x, b, s2, f1 ++ f2, rfl, by simp [run, hs, hrun], hb, hc2.trans hc, h2⟩
    · exact .inr ⟨[], e, es, s, [], rfl, rfl, hb, rfl, h⟩

variable (cfg : Config) (sm : StateMgr.StateManager) (buf data : Nat → UInt8) (ecu control : Bool)

theorem start_safe (hsm : StateMgr.smInit true true true (StateMgr.wired cfg) = .ok (.ok, sm)) :
    ∃ m0, Safe cfg m0 (start sm (PcReq.initRun data).dec buf ecu control) := by
  obtain ⟨m0, -, hi, hr⟩ := start_inv cfg sm (PcReq.initRun data).dec buf ecu control hsm
  exact ⟨m0, ⟨_, hi⟩, ⟨_, hr, Drive.start_inv _ _ _ _⟩, rfl, rfl, PcReq.initRun_ready data,
    fun t ht => (by cases ht), fun _ => rfl⟩

/-- **C131.** Take the control software with the fault manager's pointer set (C10), the decoder and
the terminal as initialised, and any history: any values written by the other tasks, any
interleaving, any outcome of locks, CAN layer and checksum unit, any bytes from the PC.  Either no
undefined behaviour is reached, every command frame is one of C76, and all texts left to print fit into
their frame; or it is first reached by executing a terminal message, with vehicle control enabled, that makes the text in the
terminal's buffer have nine separators or begin with `help` and have two. -/
theorem C131_only_terminal (hsm : StateMgr.smInit true true true (StateMgr.wired cfg) = .ok (.ok, sm))
    (es : List Ev) (hf : ∀ d, Ev.write d ∈ es → F32.IsFloat d.inputs.accel)
    (hb : ∀ b crc, Ev.pcBatch b crc ∈ es → b.length ≤ 8) :
    (∃ s fs, run (start sm (PcReq.initRun data).dec buf ecu control) es = .ok (s, fs) ∧
      (∀ f ∈ fs, Drive.FrameOk f) ∧ ∀ t, PcAct.print t ∈ s.todo → t.length ≤ 243) ∨
    ∃ es1 lock es2 s1 f1 bs rest, es = es1 ++ .pcAct lock :: es2 ∧
      run (start sm (PcReq.initRun data).dec buf ecu control) es1 = .ok (s1, f1) ∧ control = true ∧
      s1.todo = .terminal bs :: rest ∧ Term.Risky (Term.content s1.term ++ Term.text bs) := by
  obtain ⟨m0, h⟩ := start_safe cfg sm buf data ecu control hsm
  have hr : ∀ e ∈ es, Real e := by
    intro e he
    cases e with
    | write d => exact hf d he
    | pcBatch b crc => exact hb b crc he
    | _ => trivial
  rcases run_safe es _ h hr with ⟨s, fs, h1, h2, -, h3⟩ | ⟨a, x, b, s1, f1, rfl, h1, hbad, hc, hs1⟩
  · exact .inl ⟨s, fs, h1, h3, h2.prints⟩
  · obtain ⟨lock, bs, rest, rfl, ht, hk⟩ := hbad
    refine .inr ⟨a, lock, b, s1, f1, bs, rest, rfl, h1, ?_, ht, hk⟩
    cases control with
    | true => rfl
    | false =>
      have := hs1.off hc
      rw [ht] at this
      cases this

/-- Without vehicle control enabled for the PC there is no undefined behaviour, whatever is received. -/
theorem C131_control_off (hsm : StateMgr.smInit true true true (StateMgr.wired cfg) = .ok (.ok, sm))
    (es : List Ev) (hf : ∀ d, Ev.write d ∈ es → F32.IsFloat d.inputs.accel)
    (hb : ∀ b crc, Ev.pcBatch b crc ∈ es → b.length ≤ 8) :
    ∃ s fs, run (start sm (PcReq.initRun data).dec buf ecu false) es = .ok (s, fs) ∧
      ∀ f ∈ fs, Drive.FrameOk f := by
  rcases C131_only_terminal cfg sm buf data ecu false hsm es hf hb with
    ⟨s, fs, h1, h2, -⟩ | ⟨_, _, _, _, _, _, _, -, -, h, -⟩
  · exact ⟨s, fs, h1, h2⟩
  · cases h

/-- A request whose payload is `help x` and a newline, in batches of at most eight bytes. -/
def helpX : List Ev :=
  let unit : MsgFrame.CrcUnit := fun _ _ => some 0
  [.pcBatch [0x3A, 0x00, 0x01, 0x00, 0x09, 104, 101, 108] unit,
   .pcBatch [112, 32, 120, 10, 0, 0, 0, 0] unit, .pcBatch [0, 0x0D, 0x0A] unit, .pcAct true]

/-- The second case is real: the message does end in undefined behaviour when control is enabled (the state
manager plays no part in it) ... -/
example : (run (start ⟨none, none, none, none, StateMgr.zeroVsm⟩ (PcReq.initRun fun _ => 0).dec (fun _ => 0)
    false true) helpX).toOption.isNone = true := by
  decide +kernel

/-- ... and the same bytes do nothing when it is not. -/
example : (run (start ⟨none, none, none, none, StateMgr.zeroVsm⟩ (PcReq.initRun fun _ => 0).dec (fun _ => 0)
    false false) helpX).toOption.isSome = true := by
  decide +kernel

example : Term.Risky (Term.str "help x\n") ∧ ¬ Term.Risky (Term.str "setpdm 1 1 1 0 0 0\n") := by
  unfold Term.Risky
  decide +kernel

end Verif.Vehicle
