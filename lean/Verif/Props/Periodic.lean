import Verif.Model.Periodic
import Verif.Props.Wheelspeed
import Verif.Props.Telemetry

set_option autoImplicit false

/-!
# C53: once per hundred activations
-/

namespace Verif.Periodic

/-! ### Heartbeat -/

/-- Counter of the heartbeat task after `t` activations since initialisation. -/
def beatCounter : Nat → UInt16
  | 0 => 0
  | t + 1 => (watchdogTick (beatCounter t)).1

/-- Whether the `t`-th activation (from 0) toggles the output. -/
def beats (t : Nat) : Bool := (watchdogTick (beatCounter t)).2

theorem beatCounter_eq : ∀ t, (beatCounter t).toNat = t % 100
  | 0 => rfl
  | t + 1 => by
    have ih := beatCounter_eq t
    have hlt : t % 100 < 100 := Nat.mod_lt _ (by norm_num)
    have h1 : (beatCounter t + 1).toNat = t % 100 + 1 := by
      rw [UInt16.toNat_add, ih]
      exact Nat.mod_eq_of_lt (by show _ + 1 < 65536; omega)
    rw [beatCounter, watchdogTick]
    split
    · rename_i h
      rw [h] at h1
      have : t % 100 + 1 = 100 := h1.symm
      show 0 = (t + 1) % 100
      omega
    · rename_i h
      have hne : t % 100 + 1 ≠ 100 := fun e => h (UInt16.toNat_inj.1 (by rw [h1, e]; rfl))
      rw [h1]; omega

/-- C53, heartbeat: for ever, the output toggles exactly on every hundredth activation. -/
theorem C53_heartbeat (t : Nat) : beats t = true ↔ t % 100 = 99 := by
  have ih := beatCounter_eq t
  have hlt : t % 100 < 100 := Nat.mod_lt _ (by norm_num)
  have h1 : (beatCounter t + 1).toNat = t % 100 + 1 := by
    rw [UInt16.toNat_add, ih]
    exact Nat.mod_eq_of_lt (by show _ + 1 < 65536; omega)
  rw [beats, watchdogTick]
  split
  · rename_i h
    rw [h] at h1
    have : t % 100 + 1 = 100 := h1.symm
    simp; omega
  · rename_i h
    have hne : t % 100 + 1 ≠ 100 := fun e => h (UInt16.toNat_inj.1 (by rw [h1, e]; rfl))
    simp; omega

example : (List.range 250).filter beats = [99, 199] := by decide +kernel

/-! ### Wheel speed -/

/-- Whether the activation in state `s` attempts an update. -/
def updates (s : Wheelspeed.St) : Prop := ∃ s', Wheelspeed.tick s true = .ok (true, s')

theorem tick_counter (s s' : Wheelspeed.St) (a u : Bool) (h : Wheelspeed.tick s a = .ok (u, s')) :
    s'.counter = s.counter + 1 ∧ s'.teeth = s.teeth ∧ (u = true ↔ s.counter % 100 = 0) := by
  unfold Wheelspeed.tick at h
  split at h
  · rename_i hc
    dsimp only at h
    split at h
    · cases h1 : Wheelspeed.rpm (Wheelspeed.countLowHighTransitions (s.stream.take Wheelspeed.batchMax)).1 s.teeth with
      | error e => rw [h1] at h; cases h
      | ok v =>
        cases h2 : Wheelspeed.rpm (Wheelspeed.countLowHighTransitions (s.stream.take Wheelspeed.batchMax)).2 s.teeth with
        | error e => rw [h1, h2] at h; cases h
        | ok w =>
          rw [h1, h2] at h
          cases h
          refine ⟨?_, ?_, by simp [hc]⟩ <;> split <;> rfl
    · cases h
      exact ⟨rfl, rfl, by simp [hc]⟩
  · rename_i hc
    cases h
    exact ⟨rfl, rfl, by simp [hc]⟩

theorem wheelAfter_counter (refill : Nat → List UInt8) (teeth : UInt16) (p : WheelState)
    (ht : teeth ≠ 0) : ∀ t, ∃ s, wheelAfter refill (Wheelspeed.start teeth p) t = .ok s ∧
      s.teeth = teeth ∧ s.counter.toNat = t % 65536
  | 0 => ⟨_, rfl, rfl, rfl⟩
  | t + 1 => by
    obtain ⟨s, h, h1, h2⟩ := wheelAfter_counter refill teeth p ht t
    obtain ⟨u, s', h3, h4, -⟩ :=
      Wheelspeed.tick_stream { s with stream := s.stream ++ refill t } true (by dsimp only; rw [h1]; exact ht)
    obtain ⟨e1, e2, -⟩ := tick_counter _ _ _ _ h3
    refine ⟨s', by rw [wheelAfter, h]; show (Wheelspeed.tick _ true >>= _) = _; rw [h3]; rfl, by rw [e2]; exact h1, ?_⟩
    have e1' : s'.counter = s.counter + 1 := e1
    rw [e1', UInt16.toNat_add, h2]
    show (t % 65536 + 1) % 65536 = _
    omega

/-- The exact schedule of wheel-speed updates: the `t`-th activation updates iff
`t mod 65536` is a multiple of 100, whatever was sampled. -/
theorem C53_wheel_schedule (refill : Nat → List UInt8) (teeth : UInt16) (p : WheelState)
    (ht : teeth ≠ 0) (t : Nat) :
    ∃ s, wheelAfter refill (Wheelspeed.start teeth p) t = .ok s ∧
      (updates s ↔ t % 65536 % 100 = 0) := by
  obtain ⟨s, h, h1, h2⟩ := wheelAfter_counter refill teeth p ht t
  refine ⟨s, h, ?_⟩
  have hc : s.counter % 100 = 0 ↔ t % 65536 % 100 = 0 := by
    rw [← h2, ← UInt16.toNat_inj, UInt16.toNat_mod]; rfl
  constructor
  · rintro ⟨s', hs'⟩
    exact hc.1 ((tick_counter _ _ _ _ hs').2.2.1 rfl)
  · intro hz
    obtain ⟨u, s', h3, -, -⟩ := Wheelspeed.tick_stream s true (by rw [h1]; exact ht)
    have := (tick_counter _ _ _ _ h3).2.2.2 (hc.2 hz)
    subst this
    exact ⟨s', h3⟩

/-- C53 is false for the wheel speed: every 65536 activations (about eleven minutes) two
updates are only 36 activations apart. -/
theorem C53_wheel_glitch (refill : Nat → List UInt8) (teeth : UInt16) (p : WheelState)
    (ht : teeth ≠ 0) (k : Nat) :
    ∃ s1 s2, wheelAfter refill (Wheelspeed.start teeth p) (65536 * k + 65500) = .ok s1 ∧ updates s1 ∧
      wheelAfter refill (Wheelspeed.start teeth p) (65536 * k + 65536) = .ok s2 ∧ updates s2 := by
  obtain ⟨s1, h1, u1⟩ := C53_wheel_schedule refill teeth p ht (65536 * k + 65500)
  obtain ⟨s2, h2, u2⟩ := C53_wheel_schedule refill teeth p ht (65536 * k + 65536)
  exact ⟨s1, s2, h1, u1.2 (by omega), h2, u2.2 (by omega)⟩

/-- C53 for the wheel speed as far as it holds: before the counter first wraps, updates run
exactly on every hundredth activation. Missing: all later wraps (`C53_wheel_glitch`). -/
theorem C53_wheel_partial (refill : Nat → List UInt8) (teeth : UInt16) (p : WheelState)
    (ht : teeth ≠ 0) (t : Nat) (hb : t < 65536) :
    ∃ s, wheelAfter refill (Wheelspeed.start teeth p) t = .ok s ∧ (updates s ↔ t % 100 = 0) := by
  obtain ⟨s, h, u⟩ := C53_wheel_schedule refill teeth p ht t
  rw [Nat.mod_eq_of_lt hb] at u
  exact ⟨s, h, u⟩

/-! ### State broadcast -/

/-- Counter of the PC interface after `t` activations. -/
def pcCounter (crc : List UInt8 → Option UInt32) (bits : F32 → UInt32) (enabled : Bool) (copied : Nat → Option VData)
    (buf : Nat → List UInt8) : Nat → UInt32
  | 0 => 0
  | t + 1 => (pcTick crc bits enabled (pcCounter crc bits enabled copied buf t) (copied t) (buf t)).1

theorem pcCounter_eq (crc : List UInt8 → Option UInt32) (bits : F32 → UInt32) (enabled : Bool)
    (copied : Nat → Option VData) (buf : Nat → List UInt8) :
    ∀ t, (pcCounter crc bits enabled copied buf t).toNat = t % 2 ^ 32
  | 0 => rfl
  | t + 1 => by
    rw [pcCounter, pcTick, UInt32.toNat_add, pcCounter_eq crc bits enabled copied buf t]
    show (t % 2 ^ 32 + 1) % 2 ^ 32 = _
    omega

/-- The frames of the `t`-th activation. -/
def pcFrames (crc : List UInt8 → Option UInt32) (bits : F32 → UInt32) (enabled : Bool) (copied : Nat → Option VData)
    (buf : Nat → List UInt8) (t : Nat) : List (List UInt8) :=
  (pcTick crc bits enabled (pcCounter crc bits enabled copied buf t) (copied t) (buf t)).2

/-- Fields of at most four bytes. -/
def Small : Telemetry.Field → Prop
  | .int _ size _ => size ≤ 4
  | .flt _ _ => True

theorem calls_small (d : VData) : ∀ x ∈ Telemetry.calls d, Small x := by
  simp [Telemetry.calls, Small]

open Telemetry in
theorem sendAll_length (f : List UInt8 → UInt32) (bits : F32 → UInt32) :
    ∀ (fs : List Field), (∀ x ∈ fs, Small x) → ∀ (buf : List UInt8), buf.length = 18 →
    (sendAll (fun m => some (f m)) bits buf fs).length = fs.length
  | [], _, _, _ => rfl
  | x :: fs, hx, buf, hb => by
    have : ∃ frame, send (fun m => some (f m)) bits buf x = some frame ∧ frame.length = 18 := by
      cases x with
      | int id size v =>
        have hs : Small (.int id size v) := hx _ (List.mem_cons_self ..)
        obtain ⟨frame, h1, h2, -⟩ := send_frame f buf hb id size hs v
        exact ⟨frame, h1, h2.1⟩
      | flt id v =>
        obtain ⟨frame, h1, h2, -⟩ := send_frame f buf hb id 4 (by omega) (bits v)
        exact ⟨frame, h1, h2.1⟩
    obtain ⟨frame, h1, h2⟩ := this
    rw [sendAll, h1]
    dsimp only
    rw [List.length_cons, List.length_cons,
      sendAll_length f bits fs (fun y hy => hx y (List.mem_cons_of_mem _ hy)) frame h2]

/-- The exact schedule of the state broadcast: with the state available, the `t`-th
activation sends the eleven state frames iff `t mod 2^32` is a multiple of 100, and none
otherwise. -/
theorem C53_broadcast_schedule (f : List UInt8 → UInt32) (bits : F32 → UInt32) (copied : Nat → VData)
    (buf : Nat → List UInt8) (hb : ∀ t, (buf t).length = 18) (t : Nat) :
    (pcFrames (fun m => some (f m)) bits true (fun t => some (copied t)) buf t).length =
      if t % 2 ^ 32 % 100 = 0 then 11 else 0 := by
  have hc := pcCounter_eq (fun m => some (f m)) bits true (fun t => some (copied t)) buf t
  have hz : pcCounter (fun m => some (f m)) bits true (fun t => some (copied t)) buf t % 100 = 0 ↔
      t % 2 ^ 32 % 100 = 0 := by
    rw [← hc, ← UInt32.toNat_inj, UInt32.toNat_mod]; rfl
  unfold pcFrames pcTick Telemetry.periodicStateUpdate
  dsimp only
  rw [if_neg (by simp)]
  by_cases h : t % 2 ^ 32 % 100 = 0
  · rw [if_pos h, if_neg (by simpa using hz.2 h)]
    exact sendAll_length f bits _ (calls_small _) _ (hb t)
  · rw [if_neg h, if_pos (fun e => h (hz.1 e))]
    rfl

/-- C53 is false for the broadcast as well: at every wrap of the 32-bit counter two
broadcasts are 96 activations apart. -/
theorem C53_broadcast_glitch (f : List UInt8 → UInt32) (bits : F32 → UInt32) (copied : Nat → VData)
    (buf : Nat → List UInt8) (hb : ∀ t, (buf t).length = 18) (k : Nat) :
    (pcFrames (fun m => some (f m)) bits true (fun t => some (copied t)) buf
      (2 ^ 32 * k + 4294967200)).length = 11 ∧
    (pcFrames (fun m => some (f m)) bits true (fun t => some (copied t)) buf
      (2 ^ 32 * k + 4294967296)).length = 11 := by
  rw [C53_broadcast_schedule f bits copied buf hb, C53_broadcast_schedule f bits copied buf hb,
    if_pos (by omega), if_pos (by omega)]
  exact ⟨rfl, rfl⟩

/-- C53 for the broadcast before the counter wraps (497 days). Missing:
`C53_broadcast_glitch`. -/
theorem C53_broadcast_partial (f : List UInt8 → UInt32) (bits : F32 → UInt32) (copied : Nat → VData)
    (buf : Nat → List UInt8) (hb : ∀ t, (buf t).length = 18) (t : Nat) (ht : t < 2 ^ 32) :
    (pcFrames (fun m => some (f m)) bits true (fun t => some (copied t)) buf t).length =
      if t % 100 = 0 then 11 else 0 := by
  rw [C53_broadcast_schedule f bits copied buf hb, Nat.mod_eq_of_lt ht]

example : (pcFrames (fun _ => some 0) (fun _ => 0) true (fun _ => some VData.zero)
    (fun _ => List.replicate 18 0) 100).length = 11 := by
  rw [C53_broadcast_partial (fun _ => 0) (fun _ => 0) (fun _ => VData.zero) (fun _ => List.replicate 18 0)
    (fun _ => rfl) 100 (by norm_num)]
  rfl

end Verif.Periodic
