import Verif.Model.Halt
import Verif.Props.Vectors
import Verif.Props.CanBus
import Mathlib.Data.List.Perm.Subperm

set_option autoImplicit false

/-!
# C151: software that has stopped commands nothing
-/

namespace Verif.Halt
open Verif.Vectors Verif.Vectors.Spec

/-- The frames waiting in the mailboxes of a peripheral. -/
def waiting (s : CanBus.St) : List CanBus.Frame :=
  ((s.box 0).map (·.frame)).toList ++ ((s.box 1).map (·.frame)).toList ++ ((s.box 2).map (·.frame)).toList

theorem waiting_length (s : CanBus.St) : (waiting s).length ≤ 3 := by
  unfold waiting
  cases s.box 0 <;> cases s.box 1 <;> cases s.box 2 <;> simp

theorem waiting_take (s : CanBus.St) (m : Fin 3) (r : CanBus.Req) (h : s.box m = some r) (f : CanBus.Frame) :
    (waiting s).count f = (if r.frame = f then 1 else 0) +
      (((CanBus.upd s.box m none 0).map (·.frame)).toList ++ ((CanBus.upd s.box m none 1).map (·.frame)).toList ++
        ((CanBus.upd s.box m none 2).map (·.frame)).toList).count f := by
  have h01 : (0 : Fin 3) ≠ 1 := by decide
  have h02 : (0 : Fin 3) ≠ 2 := by decide
  have h12 : (1 : Fin 3) ≠ 2 := by decide
  rcases CanBus.fin3 m with rfl | rfl | rfl <;>
    simp [waiting, CanBus.upd, h, h01, h02, h12, h01.symm, h02.symm, h12.symm, List.count_append, List.count_cons] <;>
    omega

/-- What a peripheral can still do: frames leave the mailboxes, each at most once onto the bus. -/
structure After (s t : CanBus.St) : Prop where
  out : ∃ l, t.bus = s.bus ++ l ∧ ∀ f, l.count f + (waiting t).count f ≤ (waiting s).count f

theorem After.refl (s : CanBus.St) : After s s := ⟨⟨[], by simp, by simp⟩⟩

theorem After.trans {s t u : CanBus.St} (h : After s t) (k : After t u) : After s u := by
  obtain ⟨l, hl, hc⟩ := h.out
  obtain ⟨l', hl', hc'⟩ := k.out
  refine ⟨⟨l ++ l', by rw [hl', hl, List.append_assoc], fun f => ?_⟩⟩
  have h1 := hc f
  have h2 := hc' f
  rw [List.count_append]; omega

theorem after_slot (c : CanBus.Mcr) (rival : Option Nat) (fault : Option CanBus.Fault) (s : CanBus.St) :
    After s (CanBus.slot c rival fault s) := by
  have give : ∀ m (r : CanBus.Req), s.box m = some r → ∀ (tec : Nat) (off : Bool),
      After s { CanBus.giveUp c m r.frame s with tec := tec, off := off } := by
    intro m r hb tec off
    refine ⟨⟨[], ?_, fun f => ?_⟩⟩
    · unfold CanBus.giveUp; split_ifs <;> simp
    · have := waiting_take s m r hb f
      unfold CanBus.giveUp
      split_ifs
      · rw [this, List.count_nil, Nat.zero_add]; exact Nat.le_add_left _ _
      · simp [waiting]
  unfold CanBus.slot
  split_ifs with ho
  · exact After.refl s
  · cases hp : CanBus.pick c s with
    | none => exact After.refl s
    | some x =>
      obtain ⟨m, r⟩ := x
      have hb := CanBus.pick_box c s m r hp
      dsimp only
      split_ifs with h1
      · have := give m r hb (CanBus.giveUp c m r.frame s).tec (CanBus.giveUp c m r.frame s).off
        exact this
      · cases fault with
        | none =>
          refine ⟨⟨[r.frame], rfl, fun f => ?_⟩⟩
          rw [waiting_take s m r hb f]
          simp only [waiting, List.count_cons, List.count_nil, beq_iff_eq, Nat.zero_add]
          exact Nat.le_refl _
        | some w => exact give m r hb _ _

theorem after_quiet (c : CanBus.Mcr) (s : CanBus.St) : After s (CanBus.step c s .quiet) := by
  show After s (if _ then _ else _)
  split_ifs
  · exact ⟨⟨[], by simp, fun f => by simp [waiting]⟩⟩
  · exact After.refl s

/-- An enabled interrupt more urgent than the kernel's mask is one that ends inside the vendor library. -/
theorem urgent_inner (a : BitVec 32) (later : List Vectors.Act) (h : ∀ x ∈ later, x.ofDriver) (i : Irq)
    (he : enabled (Vectors.run (Vectors.run (reset a) boot) later) i.number = true)
    (hl : level (Vectors.run (Vectors.run (reset a) boot) later) i.number < 5) :
    ∀ calls, body i = some calls → calls.all inner = true := by
  have hm := enabled_later a later h i.number he
  rw [List.contains_iff_mem] at hm
  obtain ⟨p, hp, hn⟩ := List.mem_map.1 hm
  have hlev := C127_levels a boot.length later h (fun _ => Nat.le_refl _) p hp
    (by rw [List.take_length]; rw [hn]; exact he)
  rw [List.take_length, hn] at hlev
  rw [hlev] at hl
  have hpi := number_inj _ _ hn
  subst hpi
  have key : ∀ p ∈ levels, p.2 < 5 → ∀ calls, body p.1 = some calls → calls.all inner = true := by
    have : ∀ p ∈ levels, p.2 < 5 → (match body p.1 with | some c => c.all inner | none => true) = true := by
      decide +kernel
    intro p hp h5 calls hc
    have := this p hp h5
    rw [hc] at this
    exact this
  exact key p hp hl

/-- **C151.** Once the control software has stopped in one of its three ways, wherever it was at that moment
(`cur`: in a task or in a handler of any priority), whatever interrupts are requested and whatever their handlers would
do: no output pin changes, no further byte is handed to a serial port, and on each CAN bus only frames still appear that
were in the peripheral's mailboxes, none more often than it was there; so at most three per bus. -/
theorem C151_silent (a : BitVec 32) (later : List Vectors.Act) (h : ∀ x ∈ later, x.ofDriver) (way : Way) (cur : Int)
    (s : St) (es : List Ev) :
    let nvic := Vectors.run (Vectors.run (reset a) boot) later
    let t := run (enabled nvic) (level nvic) (way.priority cur) s es
    t.pins = s.pins ∧ t.bytes = s.bytes ∧
    ∀ b, ∃ l, (t.can b).bus = (s.can b).bus ++ l ∧ l.length ≤ 3 ∧ ∀ f, l.count f ≤ (waiting (s.can b)).count f := by
  intro nvic t
  have h5 : way.priority cur ≤ 5 := by cases way <;> simp only [Way.priority] <;> omega
  have key : ∀ (es : List Ev) (s : St), (run (enabled nvic) (level nvic) (way.priority cur) s es).pins = s.pins ∧
      (run (enabled nvic) (level nvic) (way.priority cur) s es).bytes = s.bytes ∧
      ∀ b, After (s.can b) ((run (enabled nvic) (level nvic) (way.priority cur) s es).can b) := by
    intro es
    induction es with
    | nil => exact fun s => ⟨rfl, rfl, fun b => After.refl _⟩
    | cons e es ih =>
      intro s
      obtain ⟨i1, i2, i3⟩ := ih (step (enabled nvic) (level nvic) (way.priority cur) s e)
      have one : (step (enabled nvic) (level nvic) (way.priority cur) s e).pins = s.pins ∧
          (step (enabled nvic) (level nvic) (way.priority cur) s e).bytes = s.bytes ∧
          ∀ b, After (s.can b) ((step (enabled nvic) (level nvic) (way.priority cur) s e).can b) := by
        cases e with
        | irq i acts =>
          have : step (enabled nvic) (level nvic) (way.priority cur) s (.irq i acts) = s := by
            simp only [step]
            split_ifs with hc
            · simp only [Bool.and_eq_true, decide_eq_true_eq] at hc
              have h6 : ((level nvic i.number : Nat) : Int) < 5 := Int.lt_of_lt_of_le hc.2 h5
              have hu := urgent_inner a later h i hc.1 (Int.ofNat_lt.mp h6)
              cases hb : body i with
              | none => rfl
              | some calls => simp only [hu calls hb, if_true]
            · rfl
          rw [this]
          exact ⟨rfl, rfl, fun b => After.refl _⟩
        | slot b r f =>
          refine ⟨rfl, rfl, fun b' => ?_⟩
          simp only [step, CanBus.upd]
          split_ifs with hb
          · subst hb; exact after_slot _ _ _ _
          · exact After.refl _
        | quiet b =>
          refine ⟨rfl, rfl, fun b' => ?_⟩
          simp only [step, CanBus.upd]
          split_ifs with hb
          · subst hb; exact after_quiet _ _
          · exact After.refl _
      exact ⟨i1.trans one.1, i2.trans one.2.1, fun b => (one.2.2 b).trans (i3 b)⟩
  obtain ⟨k1, k2, k3⟩ := key es s
  refine ⟨k1, k2, fun b => ?_⟩
  obtain ⟨l, hl, hc⟩ := (k3 b).out
  have hle : ∀ f, l.count f ≤ (waiting (s.can b)).count f := fun f => by have := hc f; omega
  refine ⟨l, hl, ?_, hle⟩
  have := (List.subperm_ext_iff.mpr (fun f _ => hle f)).length_le
  exact Nat.le_trans this (waiting_length _)

/-- Driving with a torque command in the mailbox: the command still goes out after a failed assertion in a task, and the
handler of the reception interrupt, which wants to send another and to switch a pin, does not run. -/
example (f g : CanBus.Frame) (bytes : List UInt8) :
    let nvic := Vectors.run (reset 0) boot
    let s : St := ⟨fun _ => (CanBus.send f 0 CanBus.boot).1, fun _ => true, bytes⟩
    let t := run (enabled nvic) (level nvic) (Way.assertion.priority 256) s
      [.irq .CAN1_RX0 [.send 0 g 1, .pin 3 false], .slot 0 none none, .slot 0 none none]
    (t.can 0).bus = [f] ∧ t.pins 3 = true := by
  intro nvic s t
  have hl : level nvic Irq.CAN1_RX0.number = 6 := by decide +kernel
  have hs : step (enabled nvic) (level nvic) (Way.assertion.priority 256) s
      (.irq .CAN1_RX0 [.send 0 g 1, .pin 3 false]) = s := by
    simp [step, hl, Way.priority]
    intro _ hc
    omega
  have ht : t = run (enabled nvic) (level nvic) (Way.assertion.priority 256) s
      [.slot 0 none none, .slot 0 none none] := by
    show run _ _ _ (step _ _ _ s _) _ = _
    rw [hs]
  rw [ht]
  exact ⟨rfl, rfl⟩

end Verif.Halt
