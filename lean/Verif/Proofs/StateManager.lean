import Verif.Model.StateManager
import Verif.Props.Vsm
import Verif.Props.FaultManager

set_option autoImplicit false

namespace Verif.StateMgr
open Verif.Vsm Verif.FaultMgr

/-- The shipped object with, additionally, the fault manager's data pointer set. -/
def wired (cfg : Config) : StateManager :=
  { shipped cfg with
    vsm := { zeroVsm with faultMgr := { zeroVsm.faultMgr with vehicleData := some 0 } } }

/-- The wake-ups that run the state machine. -/
def active (es : List Env) : List Env := es.filter (fun e => decide (e.notified > 0))

/-- State-machine inputs produced by a history of active wake-ups. -/
def inputsOf (cfg : Config) : Internal → List Env → List In
  | _, [] => []
  | m, e :: es =>
    let r := FaultMgr.step cfg m e.copy
    handlerInput r.1 e.access :: inputsOf cfg r.2 es

/-- Fault manager after a history. -/
def fmAfter (cfg : Config) (m : Internal) (es : List Env) : Internal :=
  (es.map Env.copy).foldl (fun m d => (FaultMgr.step cfg m d).2) m

/-- Correctly wired state. -/
structure Wired (cfg : Config) (s : Sys) : Prop where
  i : s.sm.vsm.inputState ≠ none
  c : s.sm.vsm.control ≠ none
  t : s.sm.vsm.throttleController ≠ none
  d : s.sm.vsm.faultMgr.vehicleData ≠ none
  cfg : s.sm.vsm.faultMgr.vehicleConfig = some cfg

def World.ofSys (s : Sys) : World := ⟨s.sm.vsm.core, s.out⟩

theorem fmStepObj_ok (cfg : Config) (fm : FaultManagerObj) (copy : Option VData)
    (hd : fm.vehicleData ≠ none) (hc : fm.vehicleConfig = some cfg) :
    fmStepObj fm copy = .ok ((FaultMgr.step cfg fm.internal copy).1,
      { fm with internal := (FaultMgr.step cfg fm.internal copy).2 }) := by
  obtain ⟨t, c, v, i⟩ := fm
  cases v with
  | none => exact absurd rfl hd
  | some p =>
    simp only at hc
    subst hc
    cases copy <;> rfl

theorem process_ok (cfg : Config) (s : Sys) (h : Wired cfg s) (e : Env) :
    ∃ s', smProcess s e = .ok s' ∧ Wired cfg s' ∧
      (e.notified > 0 →
        World.ofSys s' = (World.ofSys s).step
          (handlerInput (FaultMgr.step cfg s.sm.vsm.faultMgr.internal e.copy).1 e.access) ∧
        s'.sm.vsm.faultMgr.internal = (FaultMgr.step cfg s.sm.vsm.faultMgr.internal e.copy).2) ∧
      (¬ e.notified > 0 → s' = s) := by
  unfold smProcess
  by_cases hn : e.notified > 0
  · rw [if_pos hn]
    unfold vsmStepObj
    rw [fmStepObj_ok cfg _ _ h.d h.cfg]
    simp only [bind, Except.bind]
    rw [if_neg (by simp [h.i, h.c, h.t])]
    refine ⟨_, rfl, ⟨h.i, h.c, h.t, h.d, h.cfg⟩, fun _ => ⟨rfl, rfl⟩, fun hh => absurd hn hh⟩
  · rw [if_neg hn]
    exact ⟨s, rfl, h, fun hh => absurd hh hn, fun _ => rfl⟩

theorem run_ok (cfg : Config) (s : Sys) (h : Wired cfg s) (es : List Env) :
    ∃ s', smRun s es = .ok s' ∧ Wired cfg s' ∧
      World.ofSys s' = (World.ofSys s).run
        (inputsOf cfg s.sm.vsm.faultMgr.internal (active es)) ∧
      s'.sm.vsm.faultMgr.internal = fmAfter cfg s.sm.vsm.faultMgr.internal (active es) := by
  induction es generalizing s with
  | nil => exact ⟨s, rfl, h, rfl, rfl⟩
  | cons e es ih =>
    obtain ⟨s1, h1, h2, h3, h4⟩ := process_ok cfg s h e
    obtain ⟨s', h5, h6, h7, h8⟩ := ih s1 h2
    refine ⟨s', ?_, h6, ?_, ?_⟩
    · simp [smRun, h1, bind, Except.bind, h5]
    · by_cases hn : e.notified > 0
      · obtain ⟨h9, h10⟩ := h3 hn
        rw [h7, h9, h10]
        simp [active, hn, inputsOf, World.run]
      · rw [h7, h4 hn]; simp [active, hn]
    · by_cases hn : e.notified > 0
      · obtain ⟨h9, h10⟩ := h3 hn
        rw [h8, h10]; simp [active, hn, fmAfter]
      · rw [h8, h4 hn]; simp [active, hn]

theorem inputsOf_append (cfg : Config) (m : Internal) (xs ys : List Env) :
    inputsOf cfg m (xs ++ ys) = inputsOf cfg m xs ++ inputsOf cfg (fmAfter cfg m xs) ys := by
  induction xs generalizing m with
  | nil => rfl
  | cons x xs ih => simp [inputsOf, ih, fmAfter]

theorem inputsOf_length (cfg : Config) (m : Internal) (xs : List Env) :
    (inputsOf cfg m xs).length = xs.length := by
  induction xs generalizing m with
  | nil => rfl
  | cons x xs ih => simp [inputsOf, ih]

theorem run_eq_traj (w : World) (is : List In) (inp : Nat → In)
    (h : ∀ n, (hn : n < is.length) → inp n = is[n]) : w.run is = traj w inp is.length := by
  induction is using List.reverseRecOn with
  | nil => rfl
  | append_singleton is i ih =>
    have h1 : ∀ n, (hn : n < is.length) → inp n = is[n] := by
      intro n hn
      rw [h n (by simp; omega), List.getElem_append_left hn]
    have h2 : inp is.length = i := by rw [h _ (by simp)]; simp
    simp [World.run] at *
    rw [ih h1, traj, h2]

/-- Initialisation of the correctly wired object. -/
theorem init_wired (cfg : Config) : ∃ sm m0, smInit true true true (wired cfg) = .ok (.ok, sm) ∧
    FaultMgr.init cfg 10 = .ok m0 ∧ sm.vsm.faultMgr.internal = m0 ∧
    ∀ out, Wired cfg ⟨sm, out⟩ ∧
      World.ofSys ⟨sm, out⟩ = ⟨(World.start 10 cfg.vcu.hvActiveStateWait cfg.vcu.hvChargeTimeout
        false).vsm, out⟩ := by
  refine ⟨_, _, rfl, rfl, rfl, fun out => ⟨⟨?_, ?_, ?_, ?_, ?_⟩, ?_⟩⟩
  all_goals first | rfl | (simp [wired, shipped])

theorem run_null (s : Sys) (e : Env) (es : List Env) (he : e.notified > 0)
    (h : s.sm.vsm.faultMgr.vehicleData = none) : smRun s (e :: es) = .error .nullDeref := by
  have h1 : fmStepObj s.sm.vsm.faultMgr e.copy = .error .nullDeref := by
    unfold fmStepObj; rw [h]
  simp [smRun, smProcess, he, vsmStepObj, h1, bind, Except.bind]

end Verif.StateMgr
