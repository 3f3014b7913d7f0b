import Verif.Model.Vehicle
import Mathlib.Tactic.SplitIfs

set_option autoImplicit false

/-!
# C74: who sets the ECU error line, in the whole vehicle
-/

namespace Verif.Vehicle

open InvDrv

/-- The level an event gives the line: a call of the state machine that is due, or a request of the operator. -/
def setsLine (s : St) : Ev → Option Bool
  | .call _ => match s.pending with
    | .ecuError b :: _ => some b
    | _ => none
  | .pcAct _ => match s.todo with
    | .ecuError b :: _ => some b
    | _ => none
  | _ => none

theorem line_step (s s' : St) (ev : Ev) (fs : List Sent) (h : step s ev = .ok (s', fs)) :
    s'.ecuError = (setsLine s ev).getD s.ecuError := by
  cases ev with
  | write d => simp only [step] at h; cases h; rfl
  | copy ok =>
    simp only [step] at h
    by_cases hc : s.status = none ∧ s.pending = []
    · rw [if_pos hc] at h
      split at h
      · cases h
      · cases h; rfl
    · rw [if_neg hc] at h
      cases h; rfl
  | handle ok =>
    simp only [step] at h
    split at h
    · cases h; rfl
    · split_ifs at h <;> cases h <;> rfl
  | call e =>
    simp only [step] at h
    cases hp : s.pending with
    | nil => rw [hp] at h; cases h; simp [setsLine, hp]
    | cons o os =>
      rw [hp] at h
      simp only [applyOut] at h
      cases o with
      | ecuError b => simp only [Drive.apply] at h; cases h; simp [setsLine, hp]
      | enableInverter =>
        simp only [Drive.apply] at h
        cases hs : sendInverterEnabled s.cmd e true with
        | error u => rw [hs] at h; cases h
        | ok r => rw [hs] at h; cases h; simp [setsLine, hp]
      | motorDirection d => simp only [Drive.apply] at h; cases h; simp [setsLine, hp]
      | torqueEnabled b => simp only [Drive.apply] at h; cases h; simp [setsLine, hp]
  | throttle ok e =>
    simp only [step] at h
    split at h
    · cases h
    · cases h; rfl
  | pcBatch bytes crc =>
    simp only [step] at h
    split at h
    · cases h; rfl
    · split at h
      · cases h
      · cases h; rfl
  | pcAct lock =>
    simp only [step] at h
    cases ht : s.todo with
    | nil => rw [ht] at h; cases h; simp [setsLine, ht]
    | cons a as =>
      rw [ht] at h
      dsimp only at h
      cases ha : act { s with todo := as } lock a with
      | error u => rw [ha] at h; cases h
      | ok y =>
        rw [ha] at h
        cases h
        cases a with
        | ecuError b => simp only [act] at ha; cases ha; simp [setsLine, ht]
        | power c b =>
          simp only [act, setPower] at ha
          split at ha
          · cases ha
          · cases ha; simp [setsLine, ht]
        | print t => simp only [act] at ha; cases ha; simp [setsLine, ht]
        | terminal bs =>
          simp only [act] at ha
          split at ha
          · cases ha
          · cases ha; simp [setsLine, ht]

/-- The levels given to the line in a run, oldest first. -/
def lineWrites (s : St) : List Ev → List Bool
  | [] => []
  | e :: es =>
    match step s e with
    | .error _ => []
    | .ok (s', _) => (setsLine s e).toList ++ lineWrites s' es

/-- Missing from the property: the operator can release the line. In the whole vehicle, whatever happens, the line has
the level last given to it by the state machine's calls or the operator's requests, and nothing else changes it. -/
theorem C74_last_write_partial (es : List Ev) (s s' : St) (fs : List Sent) (h : run s es = .ok (s', fs)) :
    s'.ecuError = (lineWrites s es).getLast?.getD s.ecuError := by
  induction es generalizing s fs with
  | nil => simp only [run] at h; cases h; rfl
  | cons e es ih =>
    simp only [run] at h
    cases h1 : step s e with
    | error u => rw [h1] at h; cases h
    | ok p =>
      obtain ⟨s1, f1⟩ := p
      rw [h1] at h
      dsimp only at h
      cases h2 : run s1 es with
      | error u => rw [h2] at h; cases h
      | ok q =>
        obtain ⟨s2, f2⟩ := q
        rw [h2] at h
        cases h
        have hl := line_step s s1 e f1 h1
        have hi := ih s1 f2 h2
        simp only [lineWrites, h1]
        rw [hi, hl, List.getLast?_append]
        cases (lineWrites s1 es).getLast? with
        | some b => rfl
        | none => cases setsLine s e <;> rfl

/-- The state machine asserts the line, the operator releases it, a throttle step leaves it. -/
example (s : St) (en : Env) (hp : s.pending = [.ecuError true]) (ht : s.todo = [.ecuError false]) (d : VData) :
    lineWrites s [.call en, .write d, .pcAct true] = [true, false] := by
  simp [lineWrites, step, setsLine, applyOut, Drive.apply, hp, ht, act]

end Verif.Vehicle
