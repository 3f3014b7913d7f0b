import Verif.Model.SharedOutputs
import Verif.Props.Vsm
import Verif.Props.Periodic

set_option autoImplicit false

/-!
# Output pins with two writers (C73, C74, C75)
-/

namespace Verif.SharedOutputs
open Vsm

/-- The ticks in a history. -/
def ticks (es : List EcuEv) : List In :=
  es.filterMap fun e => match e with | .tick i => some i | .operator _ => none

theorem vsm_step_indep (w w' : World) (h : w.vsm = w'.vsm) (i : In) :
    (w.step i).vsm = (w'.step i).vsm := by
  show (Vsm.step w.vsm i).1 = (Vsm.step w'.vsm i).1
  rw [h]

/-- Operator requests do not influence the state machine. -/
theorem vsm_indep : ∀ (es : List EcuEv) (w w' : World), w.vsm = w'.vsm →
    (ecuRun w es).vsm = (w'.run (ticks es)).vsm
  | [], _, _, h => h
  | .tick i :: es, w, w', h => vsm_indep es (w.step i) (w'.step i) (vsm_step_indep w w' h i)
  | .operator b :: es, w, w', h =>
    vsm_indep es (ecuStep w (.operator b)) w' h

theorem fault_step {w : World} (h : w.vsm.vsmState = .fault) (i : In) :
    (w.step i).out.ecuError = true := by
  simp [World.step, Vsm.step, handle, h, stateFault, Outputs.apply]

theorem settled_step (w : World) (i : In) :
    (w.step i).vsm.nextState = (w.step i).vsm.vsmState := by
  show (advance _).nextState = (advance _).vsmState
  unfold advance
  dsimp only
  split
  · rfl
  · rename_i h
    exact (not_not.mp h).symm

theorem settled (es : List EcuEv) : ∀ w : World, w.vsm.nextState = w.vsm.vsmState →
    (ecuRun w es).vsm.nextState = (ecuRun w es).vsm.vsmState := by
  induction es with
  | nil => exact fun w h => h
  | cons e es ih =>
    intro w h
    cases e with
    | tick i => exact ih _ (settled_step w i)
    | operator b => exact ih _ h

theorem fault_stays {w : World} (h : w.vsm.vsmState = .fault)
    (hn : w.vsm.nextState = w.vsm.vsmState) (i : In) : (w.step i).vsm.vsmState = .fault := by
  simp [World.step, Vsm.step, handle, h, stateFault, advance, hn]

theorem fault_held : ∀ (es : List EcuEv) (w : World), w.vsm.vsmState = .fault →
    w.vsm.nextState = w.vsm.vsmState → w.out.ecuError = true → .operator false ∉ es →
    (ecuRun w es).vsm.vsmState = .fault ∧ (ecuRun w es).out.ecuError = true
  | [], _, h, _, ho, _ => ⟨h, ho⟩
  | .tick i :: es, w, h, hn, _, hm =>
    fault_held es (w.step i) (fault_stays h hn i) (settled_step w i) (fault_step h i)
      (fun hc => hm (List.mem_cons_of_mem _ hc))
  | .operator true :: es, w, h, hn, _, hm =>
    fault_held es (ecuStep w (.operator true)) h hn rfl (fun hc => hm (List.mem_cons_of_mem _ hc))
  | .operator false :: _, _, _, _, _, hm => absurd List.mem_cons_self hm

/-- **C74, what holds.** From power-up, however requests and ticks interleave: once the fault state
has been entered, a tick asserts the ECU error line whatever was requested before it, and the line
stays asserted for ever unless an operator requests its release. Missing: an operator release takes
effect until the next tick (`C74_released`). -/
theorem C74_reasserted_partial (t hv ch : UInt32) (ecu : Bool) (es es' : List EcuEv) (i : In)
    (h : (ecuRun (World.start t hv ch ecu) es).vsm.vsmState = .fault)
    (hr : .operator false ∉ es') :
    (ecuRun (World.start t hv ch ecu) (es ++ .tick i :: es')).vsm.vsmState = .fault ∧
      (ecuRun (World.start t hv ch ecu) (es ++ .tick i :: es')).out.ecuError = true := by
  have e : ecuRun (World.start t hv ch ecu) (es ++ .tick i :: es') =
      ecuRun ((ecuRun (World.start t hv ch ecu) es).step i) es' := by
    simp [ecuRun, List.foldl_append, ecuStep]
  rw [e]
  exact fault_held es' _ (fault_stays h (settled es _ rfl) i) (settled_step _ i) (fault_step h i) hr

/-- **C74 is false.** In every state, the fault state included, an operator request to release the
line releases it. -/
theorem C74_released (w : World) (es : List EcuEv) :
    (ecuRun w (es ++ [.operator false])).out.ecuError = false ∧
      (ecuRun w (es ++ [.operator false])).vsm = (ecuRun w es).vsm := by
  simp [ecuRun, List.foldl_append, ecuStep]

/-- Faulted in drive, line asserted, operator release: released while in FAULT. -/
example :
    let w := ecuRun (World.start 10 20 7000 false)
      [.tick ⟨.noFault, true, false, 0⟩, .tick ⟨.fault, true, false, 0⟩,
       .tick ⟨.fault, true, false, 0⟩, .operator false]
    w.vsm.vsmState = .fault ∧ w.out.ecuError = false := by decide

/-- **C75 is false.** In LV ready, a press of the drive button releases the line although the
operator has asserted it. -/
theorem C75_button_releases (w : World) (i : In) (hs : w.vsm.vsmState = .lvReady)
    (hf : i.fault = .noFault) (ha : i.access = true) (hb : i.button = true)
    (hp : w.vsm.inputButtonPrev = false) :
    (ecuRun w [.operator true, .tick i]).out.ecuError = false := by
  simp [ecuRun, ecuStep, World.step, Vsm.step, handle, hs, stateLvReady, hf, ha, hb, hp,
    Outputs.apply]

/-- **C75, what holds.** No other tick releases the line. -/
theorem C75_only_button_partial (w : World) (i : In) (h : w.out.ecuError = true)
    (hr : (w.step i).out.ecuError = false) :
    w.vsm.vsmState = .lvReady ∧ i.fault = .noFault ∧ i.access = true ∧ i.button = true ∧
      w.vsm.inputButtonPrev = false := by
  have hr' : ((handle w.vsm i).2.foldl Outputs.apply w.out).ecuError = false := hr
  unfold handle at hr'
  split at hr'
  · simp [stateInit, Outputs.apply] at hr'
  · unfold stateLvStartup at hr'
    split at hr'
    · simp [h] at hr'
    · split at hr' <;> simp [h] at hr'
  · rename_i hs
    unfold stateLvReady at hr'
    split at hr'
    · simp [h] at hr'
    · rename_i hf
      split at hr'
      · rename_i ha
        split at hr'
        · rename_i hb
          simp at hb hf
          exact ⟨hs, hf, ha, hb.1, hb.2⟩
        · simp [h] at hr'
      · simp [h] at hr'
  · unfold stateHvActive at hr'
    split at hr'
    · simp [h] at hr'
    · split at hr' <;> simp [h, Outputs.apply] at hr'
  · unfold stateHvCharging at hr'
    split at hr'
    · simp [h] at hr'
    · split at hr'
      · split at hr'
        · simp [h] at hr'
        · split at hr' <;> simp [h] at hr'
      · simp [h] at hr'
  · unfold stateActiveNeutral at hr'
    split at hr'
    · simp [h] at hr'
    · split at hr'
      · split at hr' <;> simp [h, Outputs.apply] at hr'
      · simp [h] at hr'
  · unfold stateActiveForward at hr'
    split at hr'
    · simp [h] at hr'
    · split at hr'
      · split at hr' <;> simp [h, Outputs.apply] at hr'
      · simp [h] at hr'
  · simp [stateFault, Outputs.apply] at hr'
  · simp [h] at hr'

/-- The state of `C75_button_releases` is reached. -/
example :
    let w := ecuRun (World.start 10 20 7000 false)
      [.tick ⟨.noFault, true, false, 0⟩, .tick ⟨.noFault, true, false, 0⟩, .operator true]
    w.vsm.vsmState = .lvReady ∧ w.vsm.inputButtonPrev = false ∧ w.out.ecuError = true := by decide

/-! ## The lamp -/

/-- Heartbeats in a history. -/
def beatsIn (es : List LampEv) : Nat := es.count .beat

/-- The counter after `n` heartbeats. -/
theorem lamp_counter (es : List LampEv) :
    (lampRun lampStart es).counter.toNat = beatsIn es % 100 := by
  induction es using List.reverseRecOn with
  | nil => rfl
  | append_singleton es e ih =>
    have hlt : beatsIn es % 100 < 100 := Nat.mod_lt _ (by norm_num)
    have e1 : lampRun lampStart (es ++ [e]) = lampStep (lampRun lampStart es) e := by
      simp [lampRun, List.foldl_append]
    rw [e1]
    cases e with
    | set b =>
      have : beatsIn (es ++ [.set b]) = beatsIn es := by
        simp [beatsIn, List.count_append]
      rw [this]
      exact ih
    | beat =>
      have : beatsIn (es ++ [.beat]) = beatsIn es + 1 := by
        simp [beatsIn, List.count_append]
      rw [this]
      simp only [lampStep, Periodic.watchdogTick]
      have h1 : ((lampRun lampStart es).counter + 1).toNat = beatsIn es % 100 + 1 := by
        rw [UInt16.toNat_add, ih]
        exact Nat.mod_eq_of_lt (by show _ + 1 < 65536; omega)
      split
      · rename_i hc
        rw [hc] at h1
        have : beatsIn es % 100 + 1 = 100 := h1.symm
        simp; omega
      · rename_i hc
        have hne : beatsIn es % 100 + 1 ≠ 100 := fun h => hc (UInt16.toNat_inj.1 (by rw [h1, h]; rfl))
        simp only [h1]; omega

/-- **The lamp pin, exactly**: after `SetDash(on)` and `m` heartbeats without another `SetDash`,
the pin is `on` inverted once for every hundredth heartbeat in between. -/
theorem C73_level (es : List LampEv) (on : Bool) (m : Nat) :
    (lampRun lampStart (es ++ .set on :: List.replicate m .beat)).level =
      (on ^^ decide (((beatsIn es + m) / 100 - beatsIn es / 100) % 2 = 1)) := by
  induction m with
  | zero => simp [lampRun, List.foldl_append, lampStep]
  | succ m ih =>
    have e1 : lampRun lampStart (es ++ .set on :: List.replicate (m + 1) .beat) =
        lampStep (lampRun lampStart (es ++ .set on :: List.replicate m .beat)) .beat := by
      rw [List.replicate_succ']
      simp [lampRun, List.foldl_append]
    rw [e1]
    have hc := lamp_counter (es ++ .set on :: List.replicate m .beat)
    have hb : beatsIn (es ++ .set on :: List.replicate m .beat) = beatsIn es + m := by
      simp [beatsIn, List.count_append]
    rw [hb] at hc
    have hlt : (beatsIn es + m) % 100 < 100 := Nat.mod_lt _ (by norm_num)
    have h1 : ((lampRun lampStart (es ++ .set on :: List.replicate m .beat)).counter + 1).toNat =
        (beatsIn es + m) % 100 + 1 := by
      rw [UInt16.toNat_add, hc]
      exact Nat.mod_eq_of_lt (by show _ + 1 < 65536; omega)
    simp only [lampStep, Periodic.watchdogTick]
    split
    · rename_i hcc
      rw [hcc] at h1
      have h99 : (beatsIn es + m) % 100 + 1 = 100 := h1.symm
      simp only [if_true]
      rw [ih]
      have hq : (beatsIn es + (m + 1)) / 100 = (beatsIn es + m) / 100 + 1 := by omega
      have hge : beatsIn es / 100 ≤ (beatsIn es + m) / 100 := Nat.div_le_div_right (by omega)
      rw [hq]
      have hs : (beatsIn es + m) / 100 + 1 - beatsIn es / 100 =
        ((beatsIn es + m) / 100 - beatsIn es / 100) + 1 := by omega
      rw [hs]
      generalize (beatsIn es + m) / 100 - beatsIn es / 100 = k
      rcases Nat.mod_two_eq_zero_or_one k with hk | hk
      · have : (k + 1) % 2 = 1 := by omega
        simp [hk, this]
      · have : (k + 1) % 2 = 0 := by omega
        simp [hk, this]
    · rename_i hcc
      have hne : (beatsIn es + m) % 100 + 1 ≠ 100 := fun h => hcc (UInt16.toNat_inj.1 (by rw [h1, h]; rfl))
      simp only [Bool.false_eq_true, if_false]
      rw [ih]
      have hq : (beatsIn es + (m + 1)) / 100 = (beatsIn es + m) / 100 := by omega
      rw [hq]

/-- **C73 is false.** Whatever has happened before and whatever was set, one hundred heartbeats
(one second) later the lamp shows the opposite. -/
theorem C73_inverted (es : List LampEv) (on : Bool) :
    (lampRun lampStart (es ++ .set on :: List.replicate 100 .beat)).level = !on := by
  rw [C73_level]
  have : (beatsIn es + 100) / 100 - beatsIn es / 100 = 1 := by omega
  rw [this]
  simp

/-- **C73, what holds.** Up to the next multiple of one hundred heartbeats the lamp shows what
was set. -/
theorem C73_shown_partial (es : List LampEv) (on : Bool) (m : Nat)
    (h : beatsIn es % 100 + m < 100) :
    (lampRun lampStart (es ++ .set on :: List.replicate m .beat)).level = on := by
  rw [C73_level]
  have : (beatsIn es + m) / 100 - beatsIn es / 100 = 0 := by omega
  rw [this]
  simp

end Verif.SharedOutputs
