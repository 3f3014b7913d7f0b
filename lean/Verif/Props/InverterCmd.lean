import Verif.Model.Inverter
import Verif.Spec.InverterCmd

set_option autoImplicit false

/-!
# C16-C21: the inverter command interface
-/

namespace Verif.InvDrv
open F32 InvSpec

/-! ## C21: encoding -/

theorem byte_and_one (b : UInt8) : (b &&& 1).toNat = b.toNat % 2 := by
  rw [UInt8.toNat_and]
  exact Nat.and_one_is_mod _

/-- C21, bytes: for every 16-bit torque value, direction and flags, the receiver
reads back exactly what was put in, and every other bit is zero. -/
theorem C21_frame_decodes (m : ℤ) (hm : -32768 ≤ m ∧ m ≤ 32767) (d : UInt8) (en dis : Bool) :
    let p := commandBytes m d en dis
    torqueField p = m ∧ directionBit p = d.toNat.testBit 0 ∧ enableBit p = en ∧
      dischargeBit p = dis ∧ RestZero p := by
  refine ⟨?_, ?_, ?_, ?_, ?_⟩
  · simp only [torqueField, commandBytes]
    change (let u : Nat := (UInt8.ofNat ((m % 65536).toNat % 256)).toNat +
      256 * (UInt8.ofNat ((m % 65536).toNat / 256)).toNat; if u < 32768 then (u:ℤ) else u - 65536) = m
    rw [UInt8.toNat_ofNat', UInt8.toNat_ofNat']
    have : (m % 65536).toNat % 256 % 2^8 + 256 * ((m % 65536).toNat / 256 % 2^8) =
        (m % 65536).toNat := by omega
    rw [this]
    dsimp only
    split_ifs <;> omega
  · change (d &&& 1).toNat.testBit 0 = _
    rw [byte_and_one]
    simp [Nat.testBit_zero]
  · change ((if en then (1 : UInt8) else 0) ||| (if dis then 2 else 0)).toNat.testBit 0 = en
    cases en <;> cases dis <;> decide
  · change ((if en then (1 : UInt8) else 0) ||| (if dis then 2 else 0)).toNat.testBit 1 = dis
    cases en <;> cases dis <;> decide
  · refine ⟨rfl, rfl, ?_, ?_⟩
    · change (d &&& 1).toNat < 2
      rw [byte_and_one]; omega
    · change ((if en then (1 : UInt8) else 0) ||| (if dis then 2 else 0)).toNat < 4
      cases en <;> cases dis <;> decide

theorem max_val : maxTorque = fin (13421363/4096) := by decide +kernel
theorem ten_val : F32.round 10 = fin 10 := by decide +kernel

/-- Accepted torques convert without undefined behaviour, and the wire value is
within one count (0.1 Nm) of the request. -/
theorem torqueToMsg_inRange {q : ℚ} (h0 : 0 ≤ q) (h1 : q ≤ 13421363/4096) :
    ∃ m, torqueToMsg (fin q) = .ok m ∧ 0 ≤ m ∧ m ≤ 32767 ∧ |(m:ℚ) / 10 - q| < 1/10 := by
  have hr : (F32.round 10).mul (fin q) = fin (rnd (10 * q)) := by
    rw [ten_val, mul_fin, round_eq]
    rw [abs_le]; constructor <;> norm_num <;> linarith
  have a : 0 ≤ rnd (10 * q) := rnd_nonneg (by linarith)
  have b : rnd (10 * q) ≤ 32767 := by
    have e : rnd (10 * (13421363/4096)) = 32767 := by decide +kernel
    rw [← e]; exact rnd_mono (by linarith)
  have ht : trunc (rnd (10 * q)) = ⌊rnd (10 * q)⌋ := by unfold trunc; rw [if_pos a]
  have f0 : 0 ≤ ⌊rnd (10 * q)⌋ := Int.floor_nonneg.mpr a
  have f1 : ⌊rnd (10 * q)⌋ ≤ 32767 := by
    have : (⌊rnd (10 * q)⌋ : ℚ) ≤ 32767 := (Int.floor_le _).trans b
    exact_mod_cast this
  have hfl0 : 0 ≤ ⌊10 * q⌋ := Int.floor_nonneg.mpr (by linarith)
  have hfl1 : ⌊10 * q⌋ ≤ 32767 := by
    have : (⌊10 * q⌋ : ℚ) < 32768 := (Int.floor_le _).trans_lt (by norm_num at h1; linarith)
    have : ⌊10 * q⌋ < 32768 := by exact_mod_cast this
    omega
  have lo : ⌊10 * q⌋ ≤ ⌊rnd (10 * q)⌋ := by
    rw [Int.le_floor]
    exact int_le_rnd (by rw [abs_le]; constructor <;> norm_num <;> omega) (Int.floor_le _)
  have hi : rnd (10 * q) ≤ ⌈10 * q⌉ := by
    have c0 : 0 ≤ ⌈10 * q⌉ := Int.ceil_nonneg (by linarith)
    have c1 : ⌈10 * q⌉ ≤ 32768 := Int.ceil_le.mpr (by push_cast; norm_num at h1; linarith)
    exact rnd_le_int (by rw [abs_le]; constructor <;> norm_num <;> omega) (Int.le_ceil _)
  refine ⟨⌊rnd (10 * q)⌋, ?_, f0, f1, ?_⟩
  · unfold torqueToMsg
    rw [hr]
    simp only [toInt16?, ht]
    rw [if_pos (by constructor <;> omega)]
  · have g1 : (⌊10 * q⌋ : ℚ) ≤ ⌊rnd (10 * q)⌋ := by exact_mod_cast lo
    have g2 := Int.lt_floor_add_one (10 * q)
    have g3 := (Int.floor_le (rnd (10 * q))).trans hi
    have g4 := Int.ceil_lt_add_one (10 * q)
    rw [abs_lt]; constructor <;> linarith

/-- C21, value: for every accepted torque the frame carries it within 0.1 Nm,
with direction and flags exact and all other bits zero. -/
theorem C21_command_frame (q : ℚ) (h0 : 0 ≤ q) (h1 : (fin q).le maxTorque = true) (d : UInt8)
    (en dis acc : Bool) :
    ∃ f, sendCANCommand (fin q) d en dis acc = .ok f ∧ f.msgId = 0x0C0 ∧ f.accepted = acc ∧
      |(torqueField f.bytes : ℚ) / 10 - q| < 1/10 ∧ directionBit f.bytes = d.toNat.testBit 0 ∧
      enableBit f.bytes = en ∧ dischargeBit f.bytes = dis ∧ RestZero f.bytes := by
  rw [max_val, le_fin, decide_eq_true_eq] at h1
  obtain ⟨m, hm, m0, m1, he⟩ := torqueToMsg_inRange h0 h1
  obtain ⟨e1, e2, e3, e4, e5⟩ := C21_frame_decodes m ⟨by omega, by omega⟩ d en dis
  refine ⟨⟨0x0C0, commandBytes m d en dis, acc⟩, ?_, rfl, rfl, ?_, e2, e3, e4, e5⟩
  · simp only [sendCANCommand, hm]; rfl
  · dsimp only at e1 ⊢; rw [e1]; exact he

/-- 123.4 Nm forward with the inverter enabled: bytes D2 04 00 00 01 01 00 00. -/
example : sendCANCommand (F32.round (1234/10)) FORWARD true false true =
    .ok ⟨0x0C0, #v[0xD2, 0x04, 0, 0, 1, 1, 0, 0], true⟩ := by decide +kernel

/-- The largest accepted torque uses the largest 16-bit value. -/
example : torqueToMsg maxTorque = .ok 32767 := by decide +kernel

/-! ## Closed forms of the calls -/

/-- The frame sent by the enable and discharge calls. -/
def zeroFrame (en dis acc : Bool) : Sent := ⟨0x0C0, commandBytes 0 FORWARD en dis, acc⟩

theorem send_zero (en dis acc : Bool) :
    sendCANCommand (fin 0) FORWARD en dis acc = .ok (zeroFrame en dis acc) := by
  have : torqueToMsg (fin 0) = .ok 0 := by decide +kernel
  simp only [sendCANCommand, this]; rfl

theorem enableBit_zero (en dis acc : Bool) : enableBit (zeroFrame en dis acc).bytes = en :=
  (C21_frame_decodes 0 (by norm_num) FORWARD en dis).2.2.1
theorem dischargeBit_zero (en dis acc : Bool) : dischargeBit (zeroFrame en dis acc).bytes = dis :=
  (C21_frame_decodes 0 (by norm_num) FORWARD en dis).2.2.2.1
theorem torque_zero (en dis acc : Bool) : torqueField (zeroFrame en dis acc).bytes = 0 :=
  (C21_frame_decodes 0 (by norm_num) FORWARD en dis).1

theorem enabled_eq (s : Cmd) (e : Env) (b : Bool) : sendInverterEnabled s e b =
    .ok (if e.lock = false then ⟨s, [], .errorLock⟩
      else if s.dischargeModeEnabled && b then ⟨s, [], .errorDischarge⟩
      else if !s.inverterEnabled && b then
        ⟨⟨true, s.dischargeModeEnabled⟩, [zeroFrame false false (e.can 0), zeroFrame true false (e.can 1)], .ok⟩
      else ⟨⟨b, s.dischargeModeEnabled⟩, [zeroFrame b false (e.can 0)], .ok⟩) := by
  unfold sendInverterEnabled
  rcases s with ⟨en, di⟩
  cases hl : e.lock
  · simp
  · cases en <;> cases di <;> cases b <;> simp [send_zero, bind, Except.bind, pure, Except.pure]

theorem discharge_eq (s : Cmd) (e : Env) (b : Bool) : sendInverterDischarge s e b =
    .ok (if e.lock = false then ⟨s, [], .errorLock⟩
      else if s.inverterEnabled && b then ⟨s, [], .errorNotDisabled⟩
      else ⟨⟨s.inverterEnabled && !b, b⟩, [zeroFrame false b (e.can 0)],
        if e.can 0 then .ok else .errorCan⟩) := by
  unfold sendInverterDischarge
  rcases s with ⟨en, di⟩
  cases hl : e.lock
  · simp
  · cases en <;> cases di <;> cases b <;>
      simp [send_zero, bind, Except.bind, pure, Except.pure, zeroFrame]

/-- The driver accepts the torque value. -/
def InRange (t : F32) : Prop := (fin 0).le t = true ∧ t.le maxTorque = true

theorem reject_iff {t : F32} (ht : t ≠ .nan) :
    (t.lt (fin 0) || t.gt maxTorque) = true ↔ ¬ InRange t := by
  unfold InRange
  rw [max_val]
  cases t with
  | nan => exact absurd rfl ht
  | pinf => decide
  | ninf => decide
  | fin q =>
    simp only [lt_fin, gt_fin, le_fin, Bool.or_eq_true, decide_eq_true_eq, not_and_or, not_le]

/-- C17 for every torque except NaN: exactly one frame, carrying the request,
iff the torque is in range, the lock was obtained and the inverter is enabled;
otherwise no frame and the matching error.  The driver's mode never changes.
Missing from the full claim: NaN, see `C17_nan_is_undefined`. -/
theorem C17_torque_command_partial (s : Cmd) (e : Env) (t : F32) (d : UInt8) (ht : t ≠ .nan) :
    ∃ r, sendTorqueCommand s e t d = .ok r ∧ r.cmd = s ∧
      (¬ InRange t → r.sent = [] ∧ r.status = .errorValue) ∧
      (InRange t → e.lock = false → r.sent = [] ∧ r.status = .errorLock) ∧
      (InRange t → e.lock = true → s.inverterEnabled = false →
        r.sent = [] ∧ r.status = .errorNotEnabled) ∧
      (InRange t → e.lock = true → s.inverterEnabled = true →
        ∃ f q, r.sent = [f] ∧ t = fin q ∧ f.msgId = 0x0C0 ∧
          |(torqueField f.bytes : ℚ) / 10 - q| < 1/10 ∧ directionBit f.bytes = d.toNat.testBit 0 ∧
          enableBit f.bytes = true ∧ dischargeBit f.bytes = false ∧ RestZero f.bytes ∧
          r.status = if f.accepted then .ok else .errorCan) := by
  unfold sendTorqueCommand
  by_cases hr : InRange t
  · rw [if_neg (by rw [reject_iff ht]; exact fun h => h hr)]
    cases hl : e.lock
    · refine ⟨_, rfl, rfl, ?_, ?_, ?_, ?_⟩ <;> simp [hr]
    · cases hen : s.inverterEnabled
      · refine ⟨_, rfl, rfl, ?_, ?_, ?_, ?_⟩ <;> simp [hr]
      · cases t with
        | nan => exact absurd rfl ht
        | pinf => exact absurd hr.2 (by rw [max_val]; decide)
        | ninf => exact absurd hr.1 (by decide)
        | fin q =>
          have h0 : 0 ≤ q := by simpa using hr.1
          obtain ⟨f, hf, f1, f2, f3, f4, f5, f6, f7⟩ :=
            C21_command_frame q h0 hr.2 d true false (e.can 0)
          refine ⟨⟨s, [f], if f.accepted then .ok else .errorCan⟩, ?_, rfl, ?_, ?_, ?_, ?_⟩
          · simp [hf, bind, Except.bind, pure, Except.pure]
          · simp [hr]
          · simp
          · simp
          · intro _ _ _
            exact ⟨f, q, rfl, rfl, f1, f3, f4, f5, f6, f7, rfl⟩
  · rw [if_pos ((reject_iff ht).mpr hr)]
    refine ⟨_, rfl, rfl, ?_, ?_, ?_, ?_⟩ <;> simp [hr]

example : (sendTorqueCommand ⟨true, false⟩ ⟨true, fun _ => true⟩ (fin (101/2)) 1).map
    (fun r => (r.status, r.sent.length)) = .ok (.ok, 1) := by decide +kernel

/-- The full claim fails for NaN: both range comparisons are false, so an enabled
inverter reaches the undefined conversion of NaN to `int16_t`. -/
theorem C17_nan_is_undefined (s : Cmd) (e : Env) (d : UInt8) (hl : e.lock = true)
    (hs : s.inverterEnabled = true) :
    sendTorqueCommand s e .nan d = .error .badCast := by
  have : torqueToMsg .nan = .error .badCast := by decide +kernel
  unfold sendTorqueCommand
  simp [hl, hs, F32.lt, F32.gt, max_val, sendCANCommand, this, bind, Except.bind]

/-! ## C16: enable and discharge exclude each other -/

def Exclusive (s : Cmd) : Prop := ¬ (s.inverterEnabled = true ∧ s.dischargeModeEnabled = true)

theorem torque_result {s : Cmd} {e : Env} {t : F32} {d : UInt8} {r : Result}
    (h : sendTorqueCommand s e t d = .ok r) :
    r.cmd = s ∧ ∀ f ∈ r.sent, enableBit f.bytes = true ∧ dischargeBit f.bytes = false ∧
      s.inverterEnabled = true := by
  by_cases ht : t = .nan
  · subst ht
    cases hl : e.lock
    · simp [sendTorqueCommand, F32.lt, F32.gt, max_val, hl] at h
      subst h; simp
    · cases hs : s.inverterEnabled
      · simp [sendTorqueCommand, F32.lt, F32.gt, max_val, hl, hs] at h
        subst h; simp
      · rw [C17_nan_is_undefined s e d hl hs] at h; cases h
  · obtain ⟨r', h', hc, c1, c2, c3, c4⟩ := C17_torque_command_partial s e t d ht
    rw [h] at h'; cases h'
    refine ⟨hc, ?_⟩
    by_cases hr : InRange t
    · cases hl : e.lock
      · simp [(c2 hr hl).1]
      · cases hen : s.inverterEnabled
        · simp [(c3 hr hl hen).1]
        · obtain ⟨f, q, g1, _, _, _, _, g5, g6, _⟩ := c4 hr hl hen
          rw [g1]; intro f' hf'
          rw [List.mem_singleton] at hf'; subst hf'
          exact ⟨g5, g6, rfl⟩
    · simp [(c1 hr).1]

theorem call_exclusive {s : Cmd} {e : Env} {c : Call} {r : Result} (hs : Exclusive s)
    (h : call s e c = .ok r) :
    Exclusive r.cmd ∧ ∀ f ∈ r.sent, ¬ (enableBit f.bytes = true ∧ dischargeBit f.bytes = true) := by
  cases c with
  | torque t d =>
    obtain ⟨h1, h2⟩ := torque_result h
    refine ⟨by rw [h1]; exact hs, ?_⟩
    intro f hf; rw [(h2 f hf).2.1]; simp
  | enable b =>
    simp only [call, enabled_eq, Except.ok.injEq] at h
    subst h
    rcases s with ⟨en, di⟩
    cases hl : e.lock
    · simpa using hs
    · cases en <;> cases di <;> cases b <;>
        simp_all [Exclusive, enableBit_zero, dischargeBit_zero]
  | discharge b =>
    simp only [call, discharge_eq, Except.ok.injEq] at h
    subst h
    rcases s with ⟨en, di⟩
    cases hl : e.lock
    · simpa using hs
    · cases en <;> cases di <;> cases b <;>
        simp_all [Exclusive, enableBit_zero, dischargeBit_zero]

theorem run_exclusive (cs : List (Call × Env)) : ∀ (s s' : Cmd) (rs : List Result), Exclusive s →
    runCalls s cs = .ok (s', rs) →
    Exclusive s' ∧ ∀ r ∈ rs, Exclusive r.cmd ∧
      ∀ f ∈ r.sent, ¬ (enableBit f.bytes = true ∧ dischargeBit f.bytes = true) := by
  induction cs with
  | nil => intro s s' rs hs h; simp [runCalls] at h; obtain ⟨rfl, rfl⟩ := h; exact ⟨hs, by simp⟩
  | cons ce cs ih =>
    obtain ⟨c, e⟩ := ce
    intro s s' rs hs h
    simp only [runCalls] at h
    cases hc : call s e c with
    | error u => rw [hc] at h; cases h
    | ok r =>
      rw [hc] at h
      simp only [bind, Except.bind] at h
      cases hr : runCalls r.cmd cs with
      | error u => rw [hr] at h; cases h
      | ok p =>
        rw [hr] at h
        simp only [pure, Except.pure, Except.ok.injEq, Prod.mk.injEq] at h
        obtain ⟨h1, h2⟩ := h
        obtain ⟨k1, k2⟩ := call_exclusive hs hc
        obtain ⟨k3, k4⟩ := ih r.cmd p.1 p.2 k1 hr
        refine ⟨h1 ▸ k3, ?_⟩
        rw [← h2]
        intro r' hr'
        rcases List.mem_cons.mp hr' with rfl | hr'
        · exact ⟨k1, k2⟩
        · exact k4 r' hr'

/-- C16: after any sequence of driver calls with any lock and CAN outcomes, the
driver is never in enabled and discharge mode at once (after any of the calls),
and no frame ever carries both bits. -/
theorem C16_enable_discharge_exclusive (cs : List (Call × Env)) (s : Cmd) (rs : List Result)
    (h : runCalls Cmd.init cs = .ok (s, rs)) :
    ¬ (s.inverterEnabled = true ∧ s.dischargeModeEnabled = true) ∧
    ∀ r ∈ rs, ¬ (r.cmd.inverterEnabled = true ∧ r.cmd.dischargeModeEnabled = true) ∧
      ∀ f ∈ r.sent, ¬ (enableBit f.bytes = true ∧ dischargeBit f.bytes = true) :=
  run_exclusive cs Cmd.init s rs (by simp [Exclusive, Cmd.init]) h

def envOk : Env := ⟨true, fun _ => true⟩

/-- A run that uses all three calls, including a refused discharge. -/
example : (runCalls Cmd.init [(.enable true, envOk), (.discharge true, envOk),
    (.torque (fin 50) 1, envOk), (.enable false, envOk), (.discharge true, envOk)]).map
      (fun p => (p.2.map (·.status), p.1)) =
    .ok ([.ok, .errorNotDisabled, .ok, .ok, .ok], ⟨false, true⟩) := by decide +kernel

/-! ## C18: lockout protocol -/

/-- C18, per call: a call that takes the driver from disabled to enabled hands
over exactly two frames, first a disable frame, then an enable frame, both with
zero torque and no discharge. -/
theorem C18_enable_preceded_by_disable (s : Cmd) (e : Env) (c : Call) (r : Result)
    (h : call s e c = .ok r) (h0 : s.inverterEnabled = false) (h1 : r.cmd.inverterEnabled = true) :
    ∃ f g, r.sent = [f, g] ∧
      enableBit f.bytes = false ∧ dischargeBit f.bytes = false ∧ torqueField f.bytes = 0 ∧
      enableBit g.bytes = true ∧ dischargeBit g.bytes = false ∧ torqueField g.bytes = 0 := by
  cases c with
  | torque t d => rw [(torque_result h).1, h0] at h1; cases h1
  | enable b =>
    simp only [call, enabled_eq, Except.ok.injEq] at h
    subst h
    rcases s with ⟨en, di⟩
    cases hl : e.lock
    · simp_all
    · cases en <;> cases di <;> cases b <;>
        simp_all [enableBit_zero, dischargeBit_zero, torque_zero]
  | discharge b =>
    simp only [call, discharge_eq, Except.ok.injEq] at h
    subst h
    rcases s with ⟨en, di⟩
    cases hl : e.lock <;> cases en <;> cases di <;> cases b <;> simp_all

/-- All frames handed to the CAN layer by a list of calls, in order. -/
def stream (rs : List Result) : List Sent := rs.flatMap (·.sent)

/-- A frame stream obeys the lockout protocol when every enable frame that does
not directly continue a run of enable frames comes directly after a disable
frame (in particular the stream does not start with an enable frame). -/
def Lockout (fs : List Sent) : Prop :=
  ∀ pre f post, fs = pre ++ f :: post → enableBit f.bytes = true →
    ∃ pre' g, pre = pre' ++ [g]

theorem run_head (cs : List (Call × Env)) : ∀ (s s' : Cmd) (rs : List Result),
    s.inverterEnabled = false → runCalls s cs = .ok (s', rs) →
    ∀ f, (stream rs).head? = some f → enableBit f.bytes = false := by
  induction cs with
  | nil => intro s s' rs hs h; simp [runCalls] at h; obtain ⟨rfl, rfl⟩ := h; simp [stream]
  | cons ce cs ih =>
    obtain ⟨c, e⟩ := ce
    intro s s' rs hs h f hf
    simp only [runCalls] at h
    cases hc : call s e c with
    | error u => rw [hc] at h; cases h
    | ok r =>
      rw [hc] at h
      simp only [bind, Except.bind] at h
      cases hr : runCalls r.cmd cs with
      | error u => rw [hr] at h; cases h
      | ok p =>
        rw [hr] at h
        simp only [pure, Except.pure, Except.ok.injEq, Prod.mk.injEq] at h
        obtain ⟨h1, h2⟩ := h
        subst h2
        have hst : stream (r :: p.2) = r.sent ++ stream p.2 := rfl
        rw [hst] at hf
        cases hen : r.cmd.inverterEnabled
        · cases hsent : r.sent with
          | nil => rw [hsent] at hf; exact ih r.cmd p.1 p.2 hen hr f hf
          | cons g gs =>
            rw [hsent] at hf
            simp at hf; subst hf
            cases c with
            | torque t d =>
              have := (torque_result hc).2 g (by rw [hsent]; exact List.mem_cons_self ..)
              rw [hs] at this; cases this.2.2
            | enable b =>
              simp only [call, enabled_eq, Except.ok.injEq] at hc
              subst hc
              rcases s with ⟨en, di⟩
              cases hl : e.lock
              · simp_all
              · cases en <;> cases di <;> cases b <;> simp_all <;>
                  (obtain ⟨rfl, _⟩ := hsent; exact enableBit_zero _ _ _)
            | discharge b =>
              simp only [call, discharge_eq, Except.ok.injEq] at hc
              subst hc
              rcases s with ⟨en, di⟩
              cases hl : e.lock
              · simp_all
              · cases en <;> cases di <;> cases b <;> simp_all <;>
                  (obtain ⟨rfl, _⟩ := hsent; exact enableBit_zero _ _ _)
        · obtain ⟨a, b, k1, k2, _⟩ := C18_enable_preceded_by_disable s e c r hc hs hen
          rw [k1] at hf; simp at hf; subst hf; exact k2

/-- C18, stream: the frames handed over by any call sequence from start-up obey
the lockout protocol. -/
theorem C18_stream_lockout (cs : List (Call × Env)) (s : Cmd) (rs : List Result)
    (h : runCalls Cmd.init cs = .ok (s, rs)) : Lockout (stream rs) := by
  intro pre f post hfs hen
  rcases List.eq_nil_or_concat pre with rfl | ⟨pre', g, rfl⟩
  · have := run_head cs Cmd.init s rs rfl h f (by rw [hfs]; rfl)
    rw [hen] at this; cases this
  · exact ⟨pre', g, List.concat_eq_append ..⟩

example : (runCalls Cmd.init [(.enable true, envOk), (.torque (fin 50) 1, envOk)]).map
    (fun p => (stream p.2).map (fun f => enableBit f.bytes)) = .ok [false, true, true] := by
  decide +kernel

/-- On the bus the protocol is not guaranteed: the disable frame may be refused
by the CAN layer while the enable frame is accepted, and the call still reports
success. -/
theorem C18_disable_frame_can_be_lost :
    ∃ r, sendInverterEnabled Cmd.init ⟨true, fun i => i == 1⟩ true = .ok r ∧ r.status = .ok ∧
      (r.sent.filter (·.accepted)).map (fun f => enableBit f.bytes) = [true] := by
  refine ⟨_, enabled_eq _ _ _, ?_, ?_⟩ <;> decide +kernel

/-! ## C19: status reports transmission -/

/-- A call reports success exactly when it sent something and all of it was accepted. -/
def StatusHonest (r : Result) : Prop :=
  r.status = .ok ↔ (r.sent ≠ [] ∧ ∀ f ∈ r.sent, f.accepted = true)

/-- C19 holds for torque and discharge calls.  Missing: the enable call. -/
theorem C19_torque_discharge_partial (s : Cmd) (e : Env) (c : Call) (r : Result)
    (h : call s e c = .ok r) (hc : ∀ b, c ≠ .enable b) : StatusHonest r := by
  unfold StatusHonest
  cases c with
  | enable b => exact absurd rfl (hc b)
  | discharge b =>
    simp only [call, discharge_eq, Except.ok.injEq] at h
    subst h
    rcases s with ⟨en, di⟩
    cases hl : e.lock <;> cases en <;> cases di <;> cases b <;> simp [zeroFrame]
  | torque t d =>
    by_cases ht : t = .nan
    · subst ht
      cases hl : e.lock
      · simp [call, sendTorqueCommand, F32.lt, F32.gt, max_val, hl] at h
        subst h; simp
      · cases hs : s.inverterEnabled
        · simp [call, sendTorqueCommand, F32.lt, F32.gt, max_val, hl, hs] at h
          subst h; simp
        · simp only [call] at h
          rw [C17_nan_is_undefined s e d hl hs] at h; cases h
    · obtain ⟨r', h', _, c1, c2, c3, c4⟩ := C17_torque_command_partial s e t d ht
      simp only [call] at h
      rw [h] at h'; cases h'
      by_cases hr : InRange t
      · cases hl : e.lock
        · simp [c2 hr hl]
        · cases hen : s.inverterEnabled
          · simp [c3 hr hl hen]
          · obtain ⟨f, q, g1, _, _, _, _, _, _, _, g9⟩ := c4 hr hl hen
            rw [g1, g9]; simp
      · simp [c1 hr]

/-- The full claim fails: enabling or disabling reports success although no
frame was accepted, in every state where it attempts to send. -/
theorem C19_enable_always_reports_ok (s : Cmd) (b : Bool)
    (hs : ¬ (s.dischargeModeEnabled = true ∧ b = true)) :
    ∃ r, sendInverterEnabled s ⟨true, fun _ => false⟩ b = .ok r ∧ r.status = .ok ∧
      r.sent ≠ [] ∧ ∀ f ∈ r.sent, f.accepted = false := by
  refine ⟨_, enabled_eq _ _ _, ?_⟩
  rcases s with ⟨en, di⟩
  cases en <;> cases di <;> cases b <;> simp_all [zeroFrame]

/-! ## C20: last frame matches the mode -/

/-- The last frame of the call shows the driver's mode. -/
def LastFrameMatches (r : Result) : Prop :=
  ∀ f, r.sent.getLast? = some f →
    enableBit f.bytes = r.cmd.inverterEnabled ∧ dischargeBit f.bytes = r.cmd.dischargeModeEnabled

/-- C20 exactly: in every state a call can start from, a successful call leaves a
matching last frame unless it disables the inverter in discharge mode, or leaves
discharge mode with the inverter enabled; in those two cases it never matches. -/
theorem C20_last_frame_partial (s : Cmd) (hs : ¬ (s.inverterEnabled = true ∧ s.dischargeModeEnabled = true))
    (e : Env) (c : Call) (r : Result) (h : call s e c = .ok r) (hok : r.status = .ok) :
    LastFrameMatches r ↔
      ¬ (c = .enable false ∧ s.dischargeModeEnabled = true) ∧
      ¬ (c = .discharge false ∧ s.inverterEnabled = true) := by
  cases c with
  | torque t d =>
    obtain ⟨h1, h2⟩ := torque_result h
    have : LastFrameMatches r := by
      intro f hf
      obtain ⟨a, b, c⟩ := h2 f (List.mem_of_getLast? hf)
      rw [h1, a, b, c]
      refine ⟨rfl, ?_⟩
      cases hd : s.dischargeModeEnabled
      · rfl
      · exact absurd ⟨c, hd⟩ hs
    simp [this]
  | enable b =>
    simp only [call, enabled_eq, Except.ok.injEq] at h
    subst h
    rcases s with ⟨en, di⟩
    cases hl : e.lock
    · simp [hl] at hok
    · cases en <;> cases di <;> cases b <;>
        simp_all [LastFrameMatches, enableBit_zero, dischargeBit_zero]
  | discharge b =>
    simp only [call, discharge_eq, Except.ok.injEq] at h
    subst h
    rcases s with ⟨en, di⟩
    cases hl : e.lock
    · simp [hl] at hok
    · cases en <;> cases di <;> cases b <;>
        simp_all [LastFrameMatches, enableBit_zero, dischargeBit_zero]

/-- The full claim fails for call sequences from start-up: after entering
discharge mode, "disable" sends a frame that ends discharge although the driver
stays in discharge mode; and after enabling, "leave discharge mode" sends a
disable frame although the driver stays enabled. -/
theorem C20_mismatch_reachable :
    (∃ s rs f, runCalls Cmd.init [(.discharge true, envOk), (.enable false, envOk)] = .ok (s, rs) ∧
      (∀ r ∈ rs, r.status = .ok) ∧ (stream rs).getLast? = some f ∧
      dischargeBit f.bytes = false ∧ s.dischargeModeEnabled = true) ∧
    (∃ s rs f, runCalls Cmd.init [(.enable true, envOk), (.discharge false, envOk)] = .ok (s, rs) ∧
      (∀ r ∈ rs, r.status = .ok) ∧ (stream rs).getLast? = some f ∧
      enableBit f.bytes = false ∧ s.inverterEnabled = true) := by
  refine ⟨⟨⟨false, true⟩, [⟨⟨false, true⟩, [zeroFrame false true true], .ok⟩,
    ⟨⟨false, true⟩, [zeroFrame false false true], .ok⟩], zeroFrame false false true, ?_⟩,
    ⟨⟨true, false⟩, [⟨⟨true, false⟩, [zeroFrame false false true, zeroFrame true false true], .ok⟩,
    ⟨⟨true, false⟩, [zeroFrame false false true], .ok⟩], zeroFrame false false true, ?_⟩⟩ <;>
  decide +kernel

end Verif.InvDrv
