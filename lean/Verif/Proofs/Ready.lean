import Verif.Model.Ready
import Verif.Proofs.KernelWorld
import Mathlib.Tactic.SplitIfs
import Mathlib.Tactic.ByContra

set_option autoImplicit false

/-! # The kernel's ready lists: invariant -/

namespace Verif.Ready

open Verif.KList

/-- The contents of all lists. -/
abbrev Lists := LId → Z Nat

/-- Changes of a list during which `t` keeps its place: other tasks come and go. -/
inductive Quiet (t : Nat) (z : Z Nat) : Z Nat → Prop where
  | refl : Quiet t z z
  | ins {z' : Z Nat} (n : Nat) : Quiet t z z' → Quiet t z (z'.insertEnd n)
  | del {z' : Z Nat} (y : Nat) : y ≠ t → Quiet t z z' → Quiet t z (z'.erase y)

theorem Quiet.trans {t : Nat} {a b c : Z Nat} (h1 : Quiet t a b) (h2 : Quiet t b c) : Quiet t a c := by
  induction h2 with
  | refl => exact h1
  | ins n _ ih => exact .ins n ih
  | del y hy _ ih => exact .del y hy ih

/-- Tasks only come; none ends. -/
def Grow (c c' : Lists) : Prop := (∀ p t, Quiet t (c (.ready p)) (c' (.ready p))) ∧ c' .ended = c .ended

theorem Grow.refl (c : Lists) : Grow c c := ⟨fun _ _ => .refl, rfl⟩

theorem Grow.trans {a b c : Lists} (h1 : Grow a b) (h2 : Grow b c) : Grow a c :=
  ⟨fun p t => (h1.1 p t).trans (h2.1 p t), h2.2.trans h1.2⟩

/-- The lists, the bit map and the priorities belong together. -/
structure Core (s : St) (c : Lists) : Prop where
  world : World s.heap c
  vals : ∀ x, s.heap.value (.item x) ≤ maxDelay
  bits : ∀ p, s.top.getLsbD p = true ↔ ∃ t, s.heap.container t = some (.ready p)
  prios : ∀ t p, s.heap.container t = some (.ready p) → s.prio t = p
  lt : ∀ t, s.prio t < 7
  bl : ∀ t, s.base t ≤ s.prio t

theorem getLsbD_bit (q p : Nat) (hq : q < 32) : (1#32 <<< q).getLsbD p = decide (p = q) := by
  by_cases h : p = q
  · subst h; simp [hq]
  · simp only [BitVec.getLsbD_shiftLeft, BitVec.getLsbD_one, h, decide_false]
    by_cases h1 : p < q
    · simp [h1]
    · have : p - q ≠ 0 := by omega
      simp [this]

/-- The memory of a task that enters a ready list. -/
theorem addReady_container (s : St) (t : Nat) :
    (addReady s t).heap.container = Function.update s.heap.container t (some (.ready (s.prio t))) := rfl

theorem core_add {s : St} {c : Lists} (I : Core s c) {t : Nat} (hc : s.heap.container t = none) :
    Core (addReady s t)
      (Function.update c (.ready (s.prio t)) ((c (.ready (s.prio t))).insertEnd t)) := by
  have hp : s.prio t < 32 := Nat.lt_trans (I.lt t) (by decide)
  refine ⟨insertEnd_world I.world _ hc, I.vals, ?_, ?_, I.lt, I.bl⟩
  · intro p
    simp only [addReady_container]
    show (s.top ||| 1#32 <<< s.prio t).getLsbD p = true ↔ _
    rw [BitVec.getLsbD_or, getLsbD_bit _ _ hp, Bool.or_eq_true, decide_eq_true_eq, I.bits]
    constructor
    · rintro (⟨x, hx⟩ | rfl)
      · refine ⟨x, ?_⟩
        rw [Function.update_of_ne, hx]
        rintro rfl; rw [hc] at hx; cases hx
      · exact ⟨t, by simp⟩
    · rintro ⟨x, hx⟩
      by_cases hxt : x = t
      · subst hxt; simp at hx; exact .inr hx.symm
      · rw [Function.update_of_ne hxt] at hx; exact .inl ⟨x, hx⟩
  · intro x p hx
    rw [addReady_container] at hx
    by_cases hxt : x = t
    · subst hxt; simp at hx; exact hx
    · rw [Function.update_of_ne hxt] at hx; exact I.prios x p hx

/-- Removing the last item empties the list. -/
theorem last_iff {h : Heap LId Nat} {c : Lists} (w : World h c) {l : LId} {t : Nat}
    (ht : h.container t = some l) :
    ((c l).erase t).all.length = 0 ↔ ∀ x, x ≠ t → h.container x ≠ some l := by
  obtain ⟨h', _, _, e3, w'⟩ := remove_world w ht
  have m := (w' l).mem
  rw [Function.update_self] at m
  constructor
  · intro e x hx hxl
    have := (m x).mp (by rw [e3, Function.update_of_ne hx, hxl])
    rw [List.length_eq_zero_iff.mp e] at this
    cases this
  · intro hall
    by_contra hne
    obtain ⟨x, hx⟩ := List.exists_mem_of_length_pos (Nat.pos_of_ne_zero hne)
    have := (m x).mpr hx
    rw [e3] at this
    by_cases hxt : x = t
    · subst hxt; simp at this
    · rw [Function.update_of_ne hxt] at this; exact hall x hxt this

theorem core_take {s : St} {c : Lists} (I : Core s c) {t p q : Nat}
    (hc : s.heap.container t = some (.ready p))
    (hq : q = p ∨ ∃ x, x ≠ t ∧ s.heap.container x = some (.ready p)) :
    ∃ h b, takeReady s t q = .ok { s with heap := h, top := b } ∧
      h.container = Function.update s.heap.container t none ∧ h.value = s.heap.value ∧
      Core { s with heap := h, top := b } (Function.update c (.ready p) ((c (.ready p)).erase t)) := by
  obtain ⟨h, e1, e2, e3, w'⟩ := remove_world I.world hc
  have hl := last_iff I.world hc
  refine ⟨h, _, by rw [takeReady, e1], e3, e2, w', fun x => by rw [e2]; exact I.vals x, ?_, ?_, I.lt, I.bl⟩
  · intro r
    simp only [e3]
    have hex : (∃ x, Function.update s.heap.container t none x = some (.ready r)) ↔
        ∃ x, x ≠ t ∧ s.heap.container x = some (.ready r) := by
      constructor
      · rintro ⟨x, hx⟩
        by_cases hxt : x = t
        · subst hxt; simp at hx
        · rw [Function.update_of_ne hxt] at hx; exact ⟨x, hxt, hx⟩
      · rintro ⟨x, hxt, hx⟩
        exact ⟨x, by rw [Function.update_of_ne hxt]; exact hx⟩
    rw [hex]
    by_cases h0 : ((c (.ready p)).erase t).all.length = 0
    · have hall := hl.mp h0
      have hqp : q = p := by
        rcases hq with h | ⟨x, hx, hxp⟩
        · exact h
        · exact absurd hxp (hall x hx)
      have hp32 : p < 32 := by
        have := I.prios t p hc
        have := I.lt t
        omega
      rw [if_pos h0, BitVec.getLsbD_and, BitVec.getLsbD_not, hqp, getLsbD_bit _ _ hp32,
        Bool.and_eq_true, I.bits]
      constructor
      · rintro ⟨⟨x, hx⟩, hr⟩
        refine ⟨x, ?_, hx⟩
        rintro rfl
        rw [hc] at hx
        simp only [Option.some.injEq, LId.ready.injEq] at hx
        subst hx
        simp at hr
      · rintro ⟨x, hxt, hx⟩
        refine ⟨⟨x, hx⟩, ?_⟩
        have hrp : r ≠ p := by
          rintro rfl; exact hall x hxt hx
        have hr32 : r < 32 := by
          have := I.prios x r hx
          have := I.lt x
          omega
        simp [hr32, hrp]
    · rw [if_neg h0, I.bits]
      constructor
      · rintro ⟨x, hx⟩
        by_cases hxt : x = t
        · subst hxt
          rw [hc] at hx
          simp only [Option.some.injEq, LId.ready.injEq] at hx
          subst hx
          by_contra hno
          exact h0 (hl.mpr (fun y hy hyp => hno ⟨y, hy, hyp⟩))
        · exact ⟨x, hxt, hx⟩
      · rintro ⟨x, _, hx⟩
        exact ⟨x, hx⟩
  · intro x r hx
    simp only [e3] at hx
    by_cases hxt : x = t
    · subst hxt; simp at hx
    · rw [Function.update_of_ne hxt] at hx; exact I.prios x r hx

/-- A list of tasks that wait. -/
def Waits (l : LId) : Prop := l = .suspended ∨ ∃ b, l = .delayed b

theorem Waits.ready {l : LId} (h : Waits l) (p : Nat) : l ≠ .ready p := by
  rcases h with rfl | ⟨b, rfl⟩ <;> exact fun e => by cases e

theorem Waits.ended {l : LId} (h : Waits l) : l ≠ .ended := by
  rcases h with rfl | ⟨b, rfl⟩ <;> exact fun e => by cases e

theorem core_wake {s : St} {c : Lists} (I : Core s c) {t : Nat} {l : LId}
    (hc : s.heap.container t = some l) (ho : Waits l) :
    ∃ h b c', wake s t = .ok { s with heap := h, top := b } ∧
      h.container = Function.update s.heap.container t (some (.ready (s.prio t))) ∧
      Core { s with heap := h, top := b } c' ∧ Grow c c' := by
  obtain ⟨h, e1, e2, e3, w'⟩ := remove_world I.world hc
  have core1 : Core { s with heap := h } (Function.update c l ((c l).erase t)) := by
    refine ⟨w', fun x => by rw [e2]; exact I.vals x, ?_, ?_, I.lt, I.bl⟩
    · intro p
      rw [I.bits]
      simp only [e3]
      constructor
      · rintro ⟨x, hx⟩
        refine ⟨x, ?_⟩
        rw [Function.update_of_ne, hx]
        rintro rfl; rw [hc] at hx; exact ho.ready p (Option.some.inj hx)
      · rintro ⟨x, hx⟩
        by_cases hxt : x = t
        · subst hxt; simp at hx
        · rw [Function.update_of_ne hxt] at hx; exact ⟨x, hx⟩
    · intro x p hx
      simp only [e3] at hx
      by_cases hxt : x = t
      · subst hxt; simp at hx
      · rw [Function.update_of_ne hxt] at hx; exact I.prios x p hx
  have hn : ({ s with heap := h } : St).heap.container t = none := by simp [e3]
  have core2 := core_add core1 hn
  refine ⟨(addReady { s with heap := h } t).heap, (addReady { s with heap := h } t).top, _,
    by rw [wake, e1]; rfl, ?_, core2, ?_⟩
  · rw [addReady_container]; simp only [e3, Function.update_idem]
  · refine ⟨?_, by rw [Function.update_of_ne (by simp), Function.update_of_ne (Ne.symm ho.ended)]⟩
    intro p x
    by_cases hp : p = s.prio t
    · subst hp
      rw [Function.update_self]
      apply Quiet.ins
      rw [Function.update_of_ne (fun e => ho.ready _ e.symm)]
      exact .refl
    · rw [Function.update_of_ne (by simpa using hp), Function.update_of_ne (fun e => ho.ready _ e.symm)]
      exact .refl

/-- `clz` finds the highest bit. -/
theorem clz_spec (b : BitVec 32) : ∀ k, (∃ p, p < k ∧ b.getLsbD p = true) →
    clz b k < k ∧ b.getLsbD (k - 1 - clz b k) = true ∧
      ∀ p, p < k → b.getLsbD p = true → p ≤ k - 1 - clz b k
  | 0, ⟨p, hp, _⟩ => absurd hp (Nat.not_lt_zero _)
  | k + 1, ⟨p, hp, hb⟩ => by
    by_cases hk : b.getLsbD k = true
    · have : clz b (k + 1) = 0 := by rw [clz, if_pos hk]
      rw [this]
      exact ⟨by omega, by simpa using hk, fun q hq _ => by omega⟩
    · have hpk : p ≠ k := by rintro rfl; exact hk hb
      obtain ⟨h1, h2, h3⟩ := clz_spec b k ⟨p, by omega, hb⟩
      have e : clz b (k + 1) = clz b k + 1 := by rw [clz, if_neg hk]
      have e' : k + 1 - 1 - (clz b k + 1) = k - 1 - clz b k := by omega
      rw [e, e']
      refine ⟨by omega, h2, fun q hq hqb => ?_⟩
      have : q ≠ k := by rintro rfl; exact hk hqb
      exact h3 q (by omega) hqb

theorem core_select {s : St} {c : Lists} (I : Core s c)
    (hi : ∃ t p, s.heap.container t = some (.ready p)) :
    ∃ x p h z, select s = .ok { s with heap := h, current := x } ∧
      h.container = s.heap.container ∧ s.heap.container x = some (.ready p) ∧
      (∀ t q, s.heap.container t = some (.ready q) → q ≤ p) ∧
      (c (.ready p)).next = some (x, z) ∧
      Core { s with heap := h, current := x } (Function.update c (.ready p) z) := by
  have h32 : ∀ t q, s.heap.container t = some (.ready q) → q < 32 := by
    intro t q hq
    have := I.prios t q hq
    have := I.lt t
    omega
  obtain ⟨t0, p0, h0⟩ := hi
  obtain ⟨h1, h2, h3⟩ := clz_spec s.top 32 ⟨p0, h32 t0 p0 h0, (I.bits p0).mpr ⟨t0, h0⟩⟩
  have e31 : 32 - 1 - clz s.top 32 = 31 - clz s.top 32 := by omega
  rw [e31] at h2 h3
  obtain ⟨t1, ht1⟩ := (I.bits _).mp h2
  have h7 : 31 - clz s.top 32 < 7 := by
    have := I.prios _ _ ht1
    have := I.lt t1
    omega
  have hmem := ((I.world _).mem t1).mp ht1
  have hcnt : s.heap.count (.ready (31 - clz s.top 32)) ≠ 0 := by
    rw [(I.world _).count]
    exact Nat.ne_of_gt (List.length_pos_of_mem hmem)
  obtain ⟨x, z, hz⟩ : ∃ x z, (c (.ready (31 - clz s.top 32))).next = some (x, z) := by
    rcases hcl : c (.ready (31 - clz s.top 32)) with ⟨a, b⟩
    rw [hcl] at hmem
    cases b with
    | cons y b => exact ⟨_, _, rfl⟩
    | nil =>
      cases a with
      | cons y a => exact ⟨_, _, rfl⟩
      | nil => simp [Z.all] at hmem
  obtain ⟨h, e1, e2, e3, w'⟩ := nextEntry_world I.world hz
  have hxm : x ∈ (c (.ready (31 - clz s.top 32))).all := by
    rcases hcl : c (.ready (31 - clz s.top 32)) with ⟨a, b⟩
    rw [hcl] at hz
    cases b with
    | cons y b =>
      simp only [Z.next, Option.some.injEq, Prod.mk.injEq] at hz
      obtain ⟨rfl, _⟩ := hz
      simp [Z.all]
    | nil =>
      cases a with
      | cons y a =>
        simp only [Z.next, Option.some.injEq, Prod.mk.injEq] at hz
        obtain ⟨rfl, _⟩ := hz
        simp [Z.all]
      | nil => simp [Z.next] at hz
  refine ⟨x, 31 - clz s.top 32, h, z, ?_, e3, ((I.world _).mem x).mpr hxm, ?_, hz, ?_⟩
  · unfold select
    simp only
    rw [if_neg (by omega), if_neg (by unfold maxPriorities; omega), if_neg hcnt, e1]
  · intro t q hq
    exact h3 q (h32 t q hq) ((I.bits q).mpr ⟨t, hq⟩)
  · exact ⟨w', fun y => by simp only [e2]; exact I.vals y, fun q => by simp only [e3]; exact I.bits q,
      fun t q ht => I.prios t q (by simpa only [e3] using ht), I.lt, I.bl⟩

end Verif.Ready
