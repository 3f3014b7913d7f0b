import Verif.Spec.Queue
import Mathlib.Tactic.ByContra
import Mathlib.Tactic.SplitIfs
import Mathlib.Tactic.Ring

set_option autoImplicit false

/-!
# C100: kernel queues are first in, first out
-/

namespace Verif.Queue

/-- The storage holds the items `l`; the oldest is item number `g` ever sent. -/
structure Holds (q : Q) (g : Nat) (l : List (List UInt8)) : Prop where
  pos : 0 < q.length
  spos : 0 < q.size
  cap : l.length ≤ q.length
  wait : q.waiting = l.length
  write : q.writeTo = (g + l.length) % q.length * q.size
  read : q.readFrom = (g + q.length - 1) % q.length * q.size
  mem : ∀ j (h : j < l.length), l[j] = (List.range q.size).map fun k => q.mem ((g + j) % q.length * q.size + k)
  sizes : ∀ x ∈ l, x.length = q.size

theorem block {a b n z k m : Nat} (h : a ≠ b) (hk : k < z) (hm : m < z) (_ha : a < n) (_hb : b < n) : a * z + k ≠ b * z + m := by
  intro he
  rcases Nat.lt_or_gt_of_ne h with hlt | hlt
  · have : (a + 1) * z ≤ b * z := Nat.mul_le_mul_right z hlt
    rw [Nat.add_mul, Nat.one_mul] at this
    omega
  · have : (b + 1) * z ≤ a * z := Nat.mul_le_mul_right z hlt
    rw [Nat.add_mul, Nat.one_mul] at this
    omega

theorem next {n z p : Nat} (hn : 0 < n) (hz : 0 < z) :
    (if n * z ≤ p % n * z + z then 0 else p % n * z + z) = (p + 1) % n * z := by
  have hp : p % n < n := Nat.mod_lt _ hn
  have e : p % n * z + z = (p % n + 1) * z := by rw [Nat.add_mul, Nat.one_mul]
  rw [e]
  have hmod : (p + 1) % n = if p % n + 1 = n then 0 else p % n + 1 := by
    rw [← Nat.mod_add_mod]
    split_ifs with h
    · rw [h, Nat.mod_self]
    · exact Nat.mod_eq_of_lt (by omega)
  rw [hmod]
  split_ifs with h1 h2 h2
  · rw [Nat.zero_mul]
  · have := Nat.le_of_mul_le_mul_right h1 hz
    omega
  · rw [h2] at h1
    exact absurd (Nat.le_refl _) h1
  · rfl

theorem mod_ne {n a b : Nat} (h1 : a < b) (h2 : b < a + n) : a % n ≠ b % n := by
  intro h
  have := Nat.sub_mod_eq_zero_of_mod_eq h.symm
  rw [Nat.mod_eq_of_lt (by omega)] at this
  omega

theorem send_holds (q : Q) (g : Nat) (l : List (List UInt8)) (h : Holds q g l) (x : List UInt8) (hx : x.length = q.size) :
    ∃ q', send q x = .ok (decide (l.length < q.length), q') ∧ q'.length = q.length ∧ q'.size = q.size ∧
      Holds q' g (if l.length < q.length then l ++ [x] else l) := by
  unfold send
  rw [h.wait]
  have hpos := h.pos
  have hsp := h.spos
  split_ifs with hlt
  · unfold copyTo
    have hm : (g + l.length) % q.length < q.length := Nat.mod_lt _ hpos
    have hb : ((g + l.length) % q.length + 1) * q.size ≤ q.length * q.size := Nat.mul_le_mul_right _ hm
    rw [Nat.add_mul, Nat.one_mul] at hb
    rw [h.write, if_neg (by omega), if_neg (by omega), next hpos hsp]
    simp only [hlt, decide_true]
    refine ⟨_, rfl, rfl, rfl, ?_⟩
    refine ⟨hpos, hsp, ?_, ?_, ?_, h.read, ?_, ?_⟩
    · rw [List.length_append, List.length_singleton]
      exact hlt
    · show q.waiting + 1 = _
      rw [h.wait, List.length_append, List.length_singleton]
    · show (g + l.length + 1) % q.length * q.size = _
      rw [List.length_append, List.length_singleton, Nat.add_assoc]
    · intro j hj
      rw [List.length_append, List.length_singleton] at hj
      dsimp only
      by_cases hjl : j < l.length
      · rw [List.getElem_append_left hjl, h.mem j hjl]
        apply List.map_congr_left
        intro k hk
        rw [List.mem_range] at hk
        have hne : (g + j) % q.length ≠ (g + l.length) % q.length := mod_ne (by omega) (by omega)
        have hj' : (g + j) % q.length < q.length := Nat.mod_lt _ hpos
        rw [if_neg]
        rintro ⟨c1, c2⟩
        exact block hne hk (show (g + j) % q.length * q.size + k - (g + l.length) % q.length * q.size < q.size by omega) hj' hm
          (by omega)
      · have hje : j = l.length := by omega
        subst hje
        rw [List.getElem_concat_length rfl]
        apply List.ext_getElem
        · simp [hx]
        · intro i h1 h2
          rw [List.getElem_map, List.getElem_range, if_pos (by omega), Nat.add_sub_cancel_left,
            List.getElem?_eq_getElem h1]
          rfl
    · intro y hy
      rcases List.mem_append.mp hy with hy | hy
      · exact h.sizes y hy
      · rw [List.mem_singleton] at hy
        rw [hy]
        exact hx
  · exact ⟨q, by simp [hlt], rfl, rfl, h⟩

theorem recv_none (q : Q) (g : Nat) (h : Holds q g []) : recv q = .ok (none, q) := by
  unfold recv
  rw [h.wait]
  rfl

theorem recv_some (q : Q) (g : Nat) (y : List UInt8) (l : List (List UInt8)) (h : Holds q g (y :: l)) :
    ∃ q', recv q = .ok (some y, q') ∧ q'.length = q.length ∧ q'.size = q.size ∧ Holds q' (g + 1) l := by
  have hpos := h.pos
  have hsp := h.spos
  have hcap := h.cap
  rw [List.length_cons] at hcap
  unfold recv
  rw [if_pos (by rw [h.wait, List.length_cons]; omega)]
  unfold copyFrom
  have hg : (g + q.length - 1 + 1) % q.length = g % q.length := by
    rw [show g + q.length - 1 + 1 = g + q.length by omega, Nat.add_mod_right]
  have hm : g % q.length < q.length := Nat.mod_lt _ hpos
  have hb : (g % q.length + 1) * q.size ≤ q.length * q.size := Nat.mul_le_mul_right _ hm
  rw [Nat.add_mul, Nat.one_mul] at hb
  rw [h.read]
  dsimp only
  rw [next hpos hsp, hg, if_neg (by omega)]
  have hy := h.mem 0 (by simp)
  rw [List.getElem_cons_zero, Nat.add_zero] at hy
  rw [← hy]
  refine ⟨_, rfl, rfl, rfl, hpos, hsp, by show l.length ≤ q.length; omega, ?_, ?_, ?_, ?_, ?_⟩
  · show q.waiting - 1 = _
    rw [h.wait, List.length_cons]
    omega
  · show q.writeTo = _
    rw [h.write, List.length_cons, show g + (l.length + 1) = g + 1 + l.length by omega]
  · show g % q.length * q.size = _
    rw [show g + 1 + q.length - 1 = g + q.length by omega, Nat.add_mod_right]
  · intro j hj
    have := h.mem (j + 1) (by rw [List.length_cons]; omega)
    rw [List.getElem_cons_succ] at this
    rw [this, show g + (j + 1) = g + 1 + j by omega]
  · exact fun x hx => h.sizes x (List.mem_cons_of_mem _ hx)

theorem run_holds (ops : List Op) : ∀ (q : Q) (g : Nat) (l : List (List UInt8)), Holds q g l →
    (∀ x, Op.send x ∈ ops → x.length = q.size) → ∃ q' g' l', run q ops = .ok (fifo q.length l ops, q') ∧ Holds q' g' l' := by
  induction ops with
  | nil => exact fun q g l h _ => ⟨q, g, l, by unfold run fifo; rfl, h⟩
  | cons o ops ih =>
    intro q g l h hs
    cases o with
    | send x =>
      obtain ⟨q1, e1, e2, e3, e4⟩ := send_holds q g l h x (hs x List.mem_cons_self)
      obtain ⟨q2, g2, l2, r1, r2⟩ := ih q1 g _ e4 (fun y hy => by rw [e3]; exact hs y (List.mem_cons_of_mem _ hy))
      refine ⟨q2, g2, l2, ?_, r2⟩
      unfold run fifo
      rw [e1]
      dsimp only
      rw [r1, e2]
      dsimp only
      split_ifs with hlt
      · simp [hlt]
      · simp [hlt]
    | recv =>
      cases l with
      | nil =>
        obtain ⟨q2, g2, l2, r1, r2⟩ := ih q g [] h (fun y hy => hs y (List.mem_cons_of_mem _ hy))
        refine ⟨q2, g2, l2, ?_, r2⟩
        unfold run fifo
        rw [recv_none q g h]
        dsimp only
        rw [r1]
      | cons y l =>
        obtain ⟨q1, e1, e2, e3, e4⟩ := recv_some q g y l h
        obtain ⟨q2, g2, l2, r1, r2⟩ := ih q1 _ l e4 (fun y hy => by rw [e3]; exact hs y (List.mem_cons_of_mem _ hy))
        refine ⟨q2, g2, l2, ?_, r2⟩
        unfold run fifo
        rw [e1]
        dsimp only
        rw [r1, e2]

/-- **C100.** A kernel queue of any length and item size, with any storage content: for every
sequence of sends and receives by tasks and interrupts, each send and each receive reports
exactly what a list holding at most that many items would: a send is refused exactly when the
queue is full, a receive gives the oldest item byte for byte, and no access leaves the
storage. -/
theorem C100_fifo (length size : Nat) (hl : 0 < length) (hz : 0 < size) (mem : Nat → UInt8) (ops : List Op)
    (hs : ∀ x, Op.send x ∈ ops → x.length = size) :
    ∃ q, run (create length size mem) ops = .ok (fifo length [] ops, q) := by
  have h : Holds (create length size mem) 0 [] := by
    refine ⟨hl, hz, Nat.zero_le _, rfl, ?_, ?_, ?_, by simp⟩
    · show 0 = (0 + 0) % length * size
      simp
    · show (length - 1) * size = (0 + length - 1) % length * size
      rw [Nat.zero_add, Nat.mod_eq_of_lt (by omega)]
    · intro j hj
      simp at hj
  obtain ⟨q, _, _, e, _⟩ := run_holds ops _ 0 [] h hs
  exact ⟨q, e⟩

/-- The emptiness test says whether the next receive would find nothing. -/
theorem C100_empty (length size : Nat) (hl : 0 < length) (hz : 0 < size) (mem : Nat → UInt8) (ops : List Op)
    (hs : ∀ x, Op.send x ∈ ops → x.length = size) (rs : List Res) (q : Q)
    (hr : run (create length size mem) ops = .ok (rs, q)) :
    isEmpty q = true ↔ ∃ q', recv q = .ok (none, q') := by
  have h : Holds (create length size mem) 0 [] := by
    refine ⟨hl, hz, Nat.zero_le _, rfl, ?_, ?_, ?_, by simp⟩
    · show 0 = (0 + 0) % length * size
      simp
    · show (length - 1) * size = (0 + length - 1) % length * size
      rw [Nat.zero_add, Nat.mod_eq_of_lt (by omega)]
    · intro j hj
      simp at hj
  obtain ⟨q', g, l, e, e2⟩ := run_holds ops _ 0 [] h hs
  rw [hr] at e
  injection e with e
  injection e with _ e
  subst e
  unfold isEmpty
  rw [beq_iff_eq, e2.wait]
  cases l with
  | nil => exact ⟨fun _ => ⟨q, recv_none q g e2⟩, fun _ => rfl⟩
  | cons y l =>
    obtain ⟨q1, e1, _⟩ := recv_some q g y l e2
    rw [e1]
    simp

/-- Two places of two bytes: full, refused, and round the end. -/
example : ∃ q, run (create 2 2 fun _ => 0) [.recv, .send [1, 2], .send [3, 4], .send [5, 6], .recv, .send [7, 8], .recv, .recv, .recv] =
    .ok ([.got none, .sent true, .sent true, .sent false, .got (some [1, 2]), .sent true, .got (some [3, 4]),
      .got (some [7, 8]), .got none], q) := by
  exact C100_fifo 2 2 (by decide) (by decide) (fun _ => 0) _ (by simp +decide)

end Verif.Queue
