import Verif.Spec.Delay
import Mathlib.Tactic.SplitIfs
import Mathlib.Tactic.ByContra
import Mathlib.Data.List.Basic

set_option autoImplicit false

/-!
# C102: timed waits end on time
-/

namespace Verif.Delay

open Verif.DelaySpec (Abs)

/-! ## Sorted lists -/

def Sorted (l : List Item) : Prop := l.Pairwise fun a b => a.val ≤ b.val

theorem mem_insert (x y : Item) (l : List Item) : y ∈ insert x l ↔ y = x ∨ y ∈ l := by
  induction l with
  | nil => simp [insert]
  | cons z zs ih =>
    unfold insert
    split_ifs
    · simp only [List.mem_cons, ih]
      constructor <;> rintro (h | h | h) <;> simp [h]
    · simp

theorem sorted_insert (x : Item) (l : List Item) (h : Sorted l) : Sorted (insert x l) := by
  induction l with
  | nil => simp [insert, Sorted]
  | cons z zs ih =>
    unfold Sorted at h ih ⊢
    rw [List.pairwise_cons] at h
    unfold insert
    split_ifs with hc
    · rw [List.pairwise_cons]
      refine ⟨fun a ha => ?_, ih h.2⟩
      rcases (mem_insert x a zs).1 ha with rfl | ha
      · exact hc
      · exact h.1 a ha
    · rw [List.pairwise_cons, List.pairwise_cons]
      refine ⟨fun a ha => ?_, h⟩
      rcases List.mem_cons.1 ha with rfl | ha
      · omega
      · have := h.1 a ha; omega

theorem filter_insert (x : Item) (v : Nat) (l : List Item) (h : Sorted l) :
    (insert x l).filter (fun y => y.val = v) =
      if x.val = v then l.filter (fun y => y.val = v) ++ [x] else l.filter (fun y => y.val = v) := by
  induction l with
  | nil => by_cases hv : x.val = v <;> simp [insert, hv]
  | cons z zs ih =>
    unfold Sorted at h
    rw [List.pairwise_cons] at h
    have ih := ih h.2
    unfold insert
    split_ifs with hc hv hv
    · rw [List.filter_cons, ih, if_pos hv, List.filter_cons]
      split_ifs <;> simp
    · rw [List.filter_cons, ih, if_neg hv, List.filter_cons]
    · have h0 : (z :: zs).filter (fun y => y.val = v) = [] := by
        rw [List.filter_eq_nil_iff]
        intro a ha
        rcases List.mem_cons.1 ha with rfl | ha
        · simp; omega
        · have := h.1 a ha; simp; omega
      rw [List.filter_cons, h0]
      simp [hv]
    · rw [List.filter_cons_of_neg (by simpa using hv)]

theorem unblock_eq (now : Nat) (l : List Item) (h : Sorted l) (hl : ∀ y ∈ l, now ≤ y.val) :
    unblock now l = ((l.filter fun y => y.val = now).map (·.task), l.filter fun y => y.val ≠ now,
      reset (l.filter fun y => y.val ≠ now)) := by
  induction l with
  | nil => rfl
  | cons z zs ih =>
    unfold Sorted at h
    rw [List.pairwise_cons] at h
    have hz := hl z (by simp)
    have ih := ih h.2 (fun y hy => hl y (by simp [hy]))
    unfold unblock
    split_ifs with hc
    · have h0 : (z :: zs).filter (fun y => y.val = now) = [] := by
        rw [List.filter_eq_nil_iff]
        intro a ha
        rcases List.mem_cons.1 ha with rfl | ha
        · simp; omega
        · have := h.1 a ha; simp; omega
      have h1 : (z :: zs).filter (fun y => y.val ≠ now) = z :: zs := by
        rw [List.filter_eq_self]
        intro a ha
        rcases List.mem_cons.1 ha with rfl | ha
        · simp; omega
        · have := h.1 a ha; simp; omega
      rw [h0, h1]
      rfl
    · have he : z.val = now := by omega
      rw [ih, List.filter_cons_of_pos (by simpa using he), List.filter_cons_of_neg (by simpa using he)]
      rfl

theorem sorted_filter (p : Item → Bool) (l : List Item) (h : Sorted l) : Sorted (l.filter p) :=
  List.Pairwise.filter p h

theorem reset_le (l : List Item) (h : Sorted l) : ∀ y ∈ l, reset l ≤ y.val := by
  cases l with
  | nil => simp
  | cons z zs =>
    unfold Sorted at h
    rw [List.pairwise_cons] at h
    intro y hy
    rcases List.mem_cons.1 hy with rfl | hy
    · exact Nat.le_refl _
    · exact h.1 y hy

/-! ## The relation -/

/-- Items with value `v`, as tasks. -/
def at' (l : List Item) (v : Nat) : List Nat := (l.filter fun y => y.val = v).map (·.task)

/-- Waiting tasks with deadline `d`. -/
def due (w : List (Nat × Option Nat)) (d : Option Nat) : List Nat := (w.filter fun x => x.2 = d).map (·.1)

structure Rel (s : St) (a : Abs) : Prop where
  tick : s.tick = a.now % W
  sd : Sorted s.delayed
  so : Sorted s.overflow
  ld : ∀ y ∈ s.delayed, y.val < W
  lo : ∀ y ∈ s.overflow, y.val < W
  del : ∀ v, v < W → at' s.delayed v = due a.wait (some (a.now / W * W + v))
  ovf : ∀ v, v < W → at' s.overflow v = due a.wait (some ((a.now / W + 1) * W + v))
  inf : s.forever = due a.wait none
  dl : ∀ t d, (t, some d) ∈ a.wait → a.now < d ∧ d < a.now + W
  next : ∀ y ∈ s.delayed, s.next ≤ y.val

theorem mem_due (w : List (Nat × Option Nat)) (d : Option Nat) (t : Nat) : t ∈ due w d ↔ (t, d) ∈ w := by
  unfold due
  simp only [List.mem_map, List.mem_filter, decide_eq_true_eq]
  constructor
  · rintro ⟨⟨x, y⟩, ⟨h1, h2⟩, h3⟩
    simp only at h2 h3
    rw [← h2, ← h3]; exact h1
  · exact fun h => ⟨(t, d), ⟨h, rfl⟩, rfl⟩

theorem mem_at (l : List Item) (v t : Nat) : t ∈ at' l v ↔ (⟨t, v⟩ : Item) ∈ l := by
  unfold at'
  simp only [List.mem_map, List.mem_filter, decide_eq_true_eq]
  constructor
  · rintro ⟨⟨x, y⟩, ⟨h1, h2⟩, h3⟩
    simp only at h2 h3
    rw [← h2, ← h3]; exact h1
  · exact fun h => ⟨⟨t, v⟩, ⟨h, rfl⟩, rfl⟩

theorem Wpos : 0 < W := by decide

theorem split_now (n : Nat) : n / W * W + n % W = n := by rw [Nat.mul_comm]; exact Nat.div_add_mod n W

/-- Every deadline is in the current or the next round of the counter. -/
theorem Rel.mem_delayed {s : St} {a : Abs} (h : Rel s a) (y : Item) (hy : y ∈ s.delayed) :
    (y.task, some (a.now / W * W + y.val)) ∈ a.wait := by
  rw [← mem_due, ← h.del _ (h.ld y hy), mem_at]
  exact hy

theorem Rel.mem_overflow {s : St} {a : Abs} (h : Rel s a) (y : Item) (hy : y ∈ s.overflow) :
    (y.task, some ((a.now / W + 1) * W + y.val)) ∈ a.wait := by
  rw [← mem_due, ← h.ovf _ (h.lo y hy), mem_at]
  exact hy

theorem round (n d : Nat) (h1 : n < d) (h2 : d < n + W) :
    (∃ v, v < W ∧ d = n / W * W + v ∧ n % W < v) ∨ (∃ v, v < W ∧ d = (n / W + 1) * W + v ∧ v < n % W) := by
  have hn := split_now n
  have hm := Nat.mod_lt n Wpos
  rw [Nat.add_mul, Nat.one_mul]
  by_cases hd : d < n / W * W + W
  · exact .inl ⟨d - n / W * W, by omega, by omega, by omega⟩
  · exact .inr ⟨d - (n / W * W + W), by omega, by omega, by omega⟩

theorem Rel.waiting {s : St} {a : Abs} (h : Rel s a) (t : Nat) : waiting s t = true ↔ t ∈ a.wait.map (·.1) := by
  unfold Delay.waiting
  simp only [Bool.or_eq_true, List.any_eq_true, beq_iff_eq, List.mem_map]
  constructor
  · rintro ((⟨y, h1, h2⟩ | ⟨y, h1, h2⟩) | ⟨y, h1, h2⟩)
    · exact ⟨_, h.mem_delayed y h1, h2⟩
    · exact ⟨_, h.mem_overflow y h1, h2⟩
    · rw [h.inf, mem_due] at h1
      exact ⟨_, h1, h2⟩
  · rintro ⟨⟨u, d⟩, h1, h2⟩
    simp only at h2
    subst h2
    cases d with
    | none => exact .inr ⟨u, by rw [h.inf, mem_due]; exact h1, rfl⟩
    | some d =>
      obtain ⟨h3, h4⟩ := h.dl u d h1
      rcases round a.now d h3 h4 with ⟨v, hv, rfl, -⟩ | ⟨v, hv, rfl, -⟩
      · exact .inl (.inl ⟨⟨u, v⟩, by rw [← mem_at, h.del v hv, mem_due]; exact h1, rfl⟩)
      · exact .inl (.inr ⟨⟨u, v⟩, by rw [← mem_at, h.ovf v hv, mem_due]; exact h1, rfl⟩)

theorem start_rel (t0 : Nat) (h : t0 < W) : Rel (start t0) ⟨t0, []⟩ := by
  refine ⟨(Nat.mod_eq_of_lt h).symm, ?_, ?_, ?_, ?_, ?_, ?_, ?_, ?_, ?_⟩ <;> simp [start, Sorted, at', due]

theorem due_append (w : List (Nat × Option Nat)) (t : Nat) (d d' : Option Nat) :
    due (w ++ [(t, d')]) d = if d' = d then due w d ++ [t] else due w d := by
  unfold due
  rw [List.filter_append]
  by_cases h : d' = d <;> simp [h]

theorem at_insert (l : List Item) (h : Sorted l) (t w v : Nat) :
    at' (insert ⟨t, w⟩ l) v = if w = v then at' l v ++ [t] else at' l v := by
  unfold at'
  rw [filter_insert _ _ _ h]
  dsimp only
  split_ifs <;> simp

theorem block_rel {s : St} {a : Abs} (h : Rel s a) (t n : Nat) (hn0 : n ≠ 0) (hn : n ≤ maxDelay) :
    Rel (block s t n)
      { a with wait := a.wait ++ [(t, if n = 2 ^ 32 - 1 then none else some (a.now + n))] } := by
  have hmod := Nat.mod_lt a.now Wpos
  have hnow := split_now a.now
  have hW : W = maxDelay + 1 := by decide
  have hmax : (2 : Nat) ^ 32 - 1 = maxDelay := by decide
  rw [hmax]
  unfold block
  by_cases h1 : n = maxDelay
  · rw [if_pos h1, if_pos h1]
    refine ⟨h.tick, h.sd, h.so, h.ld, h.lo, ?_, ?_, ?_, ?_, h.next⟩
    · intro v hv
      dsimp only
      rw [due_append, if_neg (by simp), h.del v hv]
    · intro v hv
      dsimp only
      rw [due_append, if_neg (by simp), h.ovf v hv]
    · dsimp only
      rw [due_append, if_pos rfl, h.inf]
    · intro u d hd
      simp only [List.mem_append, List.mem_singleton, Prod.mk.injEq, reduceCtorEq, and_false, or_false] at hd
      exact h.dl u d hd
  rw [if_neg h1, if_neg h1]
  dsimp only
  by_cases h2 : (s.tick + n) % W < s.tick
  · -- the counter wraps before the deadline
    rw [if_pos h2]
    rw [h.tick] at h2
    have hw : (s.tick + n) % W = a.now % W + n - W := by
      rw [h.tick, Nat.mod_eq_sub_mod, Nat.mod_eq_of_lt] <;> [omega; skip]
      by_contra hc
      rw [Nat.mod_eq_of_lt (by omega)] at h2
      omega
    have hge : W ≤ a.now % W + n := by
      by_contra hc
      rw [Nat.mod_eq_of_lt (by omega)] at h2
      omega
    rw [hw]
    refine ⟨h.tick, h.sd, sorted_insert _ _ h.so, h.ld, ?_, ?_, ?_, ?_, ?_, h.next⟩
    · intro y hy
      rcases (mem_insert _ _ _).1 hy with rfl | hy
      · show a.now % W + n - W < W
        omega
      · exact h.lo y hy
    · intro v hv
      dsimp only
      rw [due_append, if_neg (by simp only [Option.some.injEq]; omega), h.del v hv]
    · intro v hv
      dsimp only
      rw [at_insert _ h.so, due_append, h.ovf v hv, Nat.add_mul, Nat.one_mul]
      by_cases hv' : a.now % W + n - W = v
      · rw [if_pos hv', if_pos (by simp only [Option.some.injEq]; omega)]
      · rw [if_neg hv', if_neg (by simp only [Option.some.injEq]; omega)]
    · dsimp only
      rw [due_append, if_neg (by simp), h.inf]
    · intro u d hd
      simp only [List.mem_append, List.mem_singleton, Prod.mk.injEq, Option.some.injEq] at hd
      rcases hd with hd | ⟨-, rfl⟩
      · exact h.dl u d hd
      · dsimp only; omega
  · rw [if_neg h2]
    have hlt : a.now % W + n < W := by
      by_contra hc
      apply h2
      rw [h.tick, Nat.mod_eq_sub_mod (by omega), Nat.mod_eq_of_lt (by omega)]
      omega
    have hw : (s.tick + n) % W = a.now % W + n := by rw [h.tick, Nat.mod_eq_of_lt hlt]
    rw [hw]
    refine ⟨h.tick, sorted_insert _ _ h.sd, h.so, ?_, h.lo, ?_, ?_, ?_, ?_, ?_⟩
    · intro y hy
      rcases (mem_insert _ _ _).1 hy with rfl | hy
      · exact hlt
      · exact h.ld y hy
    · intro v hv
      dsimp only
      rw [at_insert _ h.sd, due_append, h.del v hv]
      by_cases hv' : a.now % W + n = v
      · rw [if_pos hv', if_pos (by simp only [Option.some.injEq]; omega)]
      · rw [if_neg hv', if_neg (by simp only [Option.some.injEq]; omega)]
    · intro v hv
      dsimp only
      rw [due_append, if_neg (by simp only [Option.some.injEq]; rw [Nat.add_mul]; omega), h.ovf v hv]
    · dsimp only
      rw [due_append, if_neg (by simp), h.inf]
    · intro u d hd
      simp only [List.mem_append, List.mem_singleton, Prod.mk.injEq, Option.some.injEq] at hd
      rcases hd with hd | ⟨-, rfl⟩
      · exact h.dl u d hd
      · dsimp only; omega
    · intro y hy
      dsimp only
      rcases (mem_insert _ _ _).1 hy with rfl | hy
      · dsimp only
        split_ifs <;> omega
      · have := h.next y hy
        split_ifs <;> omega

theorem at_remove (l : List Item) (t v : Nat) : at' (l.filter (·.task ≠ t)) v = (at' l v).filter (· ≠ t) := by
  unfold at'
  rw [List.filter_map, List.filter_filter, List.filter_filter]
  congr 1
  apply List.filter_congr
  intro x _
  simp [Bool.and_comm]

theorem due_remove (w : List (Nat × Option Nat)) (t : Nat) (d : Option Nat) :
    due (w.filter (·.1 ≠ t)) d = (due w d).filter (· ≠ t) := by
  unfold due
  rw [List.filter_map, List.filter_filter, List.filter_filter]
  congr 1
  apply List.filter_congr
  intro x _
  simp [Bool.and_comm]

theorem remove_rel {s : St} {a : Abs} (h : Rel s a) (t : Nat) :
    Rel (remove s t) { a with wait := a.wait.filter (·.1 ≠ t) } := by
  refine ⟨h.tick, sorted_filter _ _ h.sd, sorted_filter _ _ h.so, ?_, ?_, ?_, ?_, ?_, ?_, ?_⟩
  · exact fun y hy => h.ld y (List.mem_of_mem_filter hy)
  · exact fun y hy => h.lo y (List.mem_of_mem_filter hy)
  · intro v hv
    dsimp only [remove]
    rw [at_remove, due_remove, h.del v hv]
  · intro v hv
    dsimp only [remove]
    rw [at_remove, due_remove, h.ovf v hv]
  · dsimp only [remove]
    rw [due_remove, h.inf]
  · exact fun u d hd => h.dl u d (List.mem_of_mem_filter hd)
  · exact fun y hy => h.next y (List.mem_of_mem_filter hy)

/-- Everything due at one time is removed. -/
theorem due_pass (w : List (Nat × Option Nat)) (d e : Option Nat) :
    due (w.filter fun x => x.2 ≠ e) d = if d = e then [] else due w d := by
  unfold due
  rw [List.filter_filter]
  split_ifs with h
  · rw [List.map_eq_nil_iff, List.filter_eq_nil_iff]
    intro x _
    simp only [Bool.and_eq_true, decide_eq_true_eq, not_and]
    intro h1 h2
    exact h2 (h1.trans h)
  · congr 1
    apply List.filter_congr
    intro x _
    by_cases hx : x.2 = d
    · simp [hx, h]
    · simp [hx]

theorem at_pass (l : List Item) (v w : Nat) :
    at' (l.filter fun y => y.val ≠ w) v = if v = w then [] else at' l v := by
  unfold at'
  rw [List.filter_filter]
  split_ifs with h
  · rw [List.map_eq_nil_iff, List.filter_eq_nil_iff]
    intro x _
    simp only [Bool.and_eq_true, decide_eq_true_eq, not_and]
    intro h1 h2
    exact h2 (h1.trans h)
  · congr 1
    apply List.filter_congr
    intro x _
    by_cases hx : x.val = v
    · simp [hx, h]
    · simp [hx]

/-- The part of a tick after the counter and the lists are up to date. -/
theorem finish {s : St} {w : List (Nat × Option Nat)} {now : Nat}
    (htick : s.tick = now % W) (sd : Sorted s.delayed) (so : Sorted s.overflow)
    (ld : ∀ y ∈ s.delayed, y.val < W) (lo : ∀ y ∈ s.overflow, y.val < W)
    (del : ∀ v, v < W → at' s.delayed v = due w (some (now / W * W + v)))
    (ovf : ∀ v, v < W → at' s.overflow v = due w (some ((now / W + 1) * W + v)))
    (inf : s.forever = due w none)
    (dl : ∀ t d, (t, some d) ∈ w → now ≤ d ∧ d < now + W) (next : ∀ y ∈ s.delayed, s.next ≤ y.val) :
    ∃ s', (if s.next ≤ now % W then
        (.ok ((unblock (now % W) s.delayed).1,
          { s with delayed := (unblock (now % W) s.delayed).2.1, next := (unblock (now % W) s.delayed).2.2 }) : C (List Nat × St))
      else .ok ([], s)) = .ok (due w (some now), s') ∧
      Rel s' ⟨now, w.filter fun x => x.2 ≠ some now⟩ := by
  have hmod := Nat.mod_lt now Wpos
  have hnow := split_now now
  have hge : ∀ y ∈ s.delayed, now % W ≤ y.val := by
    intro y hy
    have : (y.task, some (now / W * W + y.val)) ∈ w := by
      rw [← mem_due, ← del _ (ld y hy), mem_at]; exact hy
    have := dl _ _ this
    omega
  have hdue : due w (some now) = at' s.delayed (now % W) := by rw [del _ hmod, hnow]
  have hrel : ∀ nx : Nat, (∀ y ∈ s.delayed.filter (fun y => y.val ≠ now % W), nx ≤ y.val) →
      Rel { s with delayed := s.delayed.filter (fun y => y.val ≠ now % W), next := nx }
        ⟨now, w.filter fun x => x.2 ≠ some now⟩ := by
    intro nx hnx
    refine ⟨htick, sorted_filter _ _ sd, so, fun y hy => ld y (List.mem_of_mem_filter hy), lo, ?_, ?_, ?_, ?_, hnx⟩
    · intro v hv
      dsimp only
      rw [at_pass, due_pass, del v hv]
      by_cases hv' : v = now % W
      · rw [if_pos hv', if_pos (by rw [hv', hnow])]
      · rw [if_neg hv', if_neg (by simp only [Option.some.injEq]; omega)]
    · intro v hv
      dsimp only
      rw [due_pass, ovf v hv, if_neg (by simp only [Option.some.injEq]; rw [Nat.add_mul]; omega)]
    · dsimp only
      rw [due_pass, inf, if_neg (by simp)]
    · intro t d hd
      rw [List.mem_filter] at hd
      have h1 := dl t d hd.1
      have h2 : d ≠ now := by simpa using hd.2
      dsimp only
      omega
  split_ifs with hc
  · rw [unblock_eq _ _ sd hge]
    refine ⟨_, by rw [hdue]; rfl, hrel _ (reset_le _ (sorted_filter _ _ sd))⟩
  · have hnone : at' s.delayed (now % W) = [] := by
      unfold at'
      rw [List.map_eq_nil_iff, List.filter_eq_nil_iff]
      intro y hy
      have := next y hy
      simp only [decide_eq_true_eq]
      omega
    refine ⟨s, by rw [hdue, hnone], ?_⟩
    have hall : s.delayed.filter (fun y => y.val ≠ now % W) = s.delayed := by
      rw [List.filter_eq_self]
      intro y hy
      have := next y hy
      simp only [ne_eq, decide_not, Bool.not_eq_eq_eq_not, Bool.not_true, decide_eq_false_iff_not]
      omega
    have := hrel s.next (by rw [hall]; exact next)
    rw [hall] at this
    exact this

theorem tick_rel {s : St} {a : Abs} (h : Rel s a) :
    ∃ s', tick s = .ok ((DelaySpec.step a .tick).1, s') ∧ Rel s' (DelaySpec.step a .tick).2 := by
  have hmod := Nat.mod_lt a.now Wpos
  have hnow := split_now a.now
  have htick : (s.tick + 1) % W = (a.now + 1) % W := by rw [h.tick, Nat.mod_add_mod]
  unfold tick
  dsimp only
  rw [htick]
  by_cases hw : (a.now + 1) % W = 0
  · -- wrap
    have hlast : a.now % W = W - 1 := by
      by_contra hc
      have : (a.now + 1) % W = a.now % W + 1 := by
        rw [← Nat.mod_add_mod, Nat.mod_eq_of_lt (by omega)]
      omega
    have hdiv : (a.now + 1) / W = a.now / W + 1 := by
      have h1 : a.now + 1 = (a.now / W + 1) * W := by rw [Nat.add_mul]; omega
      rw [h1, Nat.mul_div_cancel _ Wpos]
    have hempty : s.delayed = [] := by
      cases hd : s.delayed with
      | nil => rfl
      | cons y ys =>
        have hy : y ∈ s.delayed := by rw [hd]; simp
        have h1 := h.dl _ _ (h.mem_delayed y hy)
        have h2 := h.ld y hy
        omega
    rw [if_pos hw]
    unfold switch
    rw [if_neg (by simpa using hempty)]
    dsimp only
    have := @finish ⟨(a.now + 1) % W, s.overflow, s.delayed, reset s.overflow, s.forever⟩ a.wait (a.now + 1)
      rfl h.so (by rw [hempty]; exact List.Pairwise.nil) h.lo (by simp [hempty])
      (by intro v hv; rw [hdiv]; exact h.ovf v hv)
      (by
        intro v hv
        rw [hdiv]
        dsimp only
        rw [hempty]
        symm
        show due a.wait _ = []
        rw [List.eq_nil_iff_forall_not_mem]
        intro t ht
        rw [mem_due] at ht
        have := h.dl _ _ ht
        rw [Nat.add_mul, Nat.add_mul] at this
        omega)
      h.inf (fun t d hd => by have := h.dl t d hd; omega) (reset_le _ h.so)
    obtain ⟨s', h1, h2⟩ := this
    exact ⟨s', by rw [← htick] at h1 ⊢; exact h1, h2⟩
  · have hdiv : (a.now + 1) / W = a.now / W := by
      have h1 : a.now % W + 1 < W := by
        by_contra hc
        apply hw
        rw [← Nat.mod_add_mod, show a.now % W + 1 = W by omega, Nat.mod_self]
      apply Nat.div_eq_of_lt_le
      · omega
      · rw [Nat.add_mul]; omega
    rw [if_neg hw]
    dsimp only
    have := @finish ⟨(a.now + 1) % W, s.delayed, s.overflow, s.next, s.forever⟩ a.wait (a.now + 1)
      rfl h.sd h.so h.ld h.lo (by rw [hdiv]; exact h.del) (by rw [hdiv]; exact h.ovf) h.inf
      (fun t d hd => by have := h.dl t d hd; omega) h.next
    obtain ⟨s', h1, h2⟩ := this
    exact ⟨s', h1, h2⟩

/-! ## C102 -/

/-- Waits are given as 32-bit numbers. -/
def Valid : Ev → Prop
  | .block _ n => n < 2 ^ 32
  | _ => True

theorem step_rel {s : St} {a : Abs} (h : Rel s a) (e : Ev) (he : Valid e) :
    ∃ s', step s e = .ok ((DelaySpec.step a e).1, s') ∧ Rel s' (DelaySpec.step a e).2 := by
  cases e with
  | tick => exact tick_rel h
  | block t n =>
    have hw := h.waiting t
    unfold step DelaySpec.step
    dsimp only
    by_cases hc : t ∈ a.wait.map (·.1) ∨ n = 0
    · rw [if_pos hc, if_pos (by simpa [hw] using hc)]
      exact ⟨s, rfl, h⟩
    · have hv : n < 4294967296 := he
      rw [if_neg hc, if_neg (by simpa [hw] using hc)]
      push Not at hc
      exact ⟨_, rfl, block_rel h t n hc.2 (by unfold maxDelay; omega)⟩
  | event t => exact ⟨_, rfl, remove_rel h t⟩

theorem run_rel (evs : List Ev) : ∀ (s : St) (a : Abs), Rel s a → (∀ e ∈ evs, Valid e) →
    ∃ s', run s evs = .ok ((DelaySpec.run a evs).1, s') ∧ Rel s' (DelaySpec.run a evs).2 := by
  induction evs with
  | nil => exact fun s a h _ => ⟨s, rfl, h⟩
  | cons e es ih =>
    intro s a h he
    obtain ⟨s1, h1, h2⟩ := step_rel h e (he e (by simp))
    obtain ⟨s2, h3, h4⟩ := ih s1 _ h2 (fun e' h' => he e' (by simp [h']))
    refine ⟨s2, ?_, h4⟩
    simp only [run, h1, h3]
    rfl

/-- **C102.** For every sequence of ticks, waits and events, from every value of the counter and
through any number of its wrap-arounds: no assertion fails, and every tick ends exactly the
waits whose time it is, in the order in which they began. -/
theorem C102_exact (t0 : Nat) (h0 : t0 < 2 ^ 32) (evs : List Ev) (he : ∀ e ∈ evs, Valid e) :
    ∃ s, run (start t0) evs = .ok ((DelaySpec.run ⟨t0, []⟩ evs).1, s) := by
  obtain ⟨s, h, -⟩ := run_rel evs (start t0) ⟨t0, []⟩ (start_rel t0 h0) he
  exact ⟨s, h⟩

theorem spec_append (xs ys : List Ev) (a : Abs) :
    DelaySpec.run a (xs ++ ys) = ((DelaySpec.run a xs).1 ++ (DelaySpec.run (DelaySpec.run a xs).2 ys).1,
      (DelaySpec.run (DelaySpec.run a xs).2 ys).2) := by
  induction xs generalizing a with
  | nil => rfl
  | cons x xs ih => simp only [List.cons_append, DelaySpec.run, ih]

/-- Ticks in a history. -/
def ticks (evs : List Ev) : Nat := (evs.filter (· = .tick)).length

theorem spec_wait (t d : Nat) (evs : List Ev) : ∀ a : Abs, (t, some d) ∈ a.wait → (∀ e, (t, e) ∈ a.wait → e = some d) →
    .event t ∉ evs → a.now + ticks evs < d →
    (∀ w ∈ (DelaySpec.run a evs).1, t ∉ w) ∧ (t, some d) ∈ (DelaySpec.run a evs).2.wait ∧
      (∀ e, (t, e) ∈ (DelaySpec.run a evs).2.wait → e = some d) ∧
      (DelaySpec.run a evs).2.now = a.now + ticks evs := by
  induction evs with
  | nil => exact fun a h hu _ _ => ⟨by simp [DelaySpec.run], h, hu, rfl⟩
  | cons e es ih =>
    intro a h hu hev hd
    simp only [List.mem_cons, not_or] at hev
    have hstep : (t ∉ (DelaySpec.step a e).1) ∧ (t, some d) ∈ (DelaySpec.step a e).2.wait ∧
        (∀ e', (t, e') ∈ (DelaySpec.step a e).2.wait → e' = some d) ∧
        (DelaySpec.step a e).2.now + ticks es = a.now + ticks (e :: es) := by
      cases e with
      | tick =>
        have ht : ticks (.tick :: es) = ticks es + 1 := by simp [ticks]
        rw [ht] at hd
        refine ⟨?_, ?_, ?_, by rw [ht]; show a.now + 1 + _ = _; omega⟩
        · show t ∉ due a.wait (some (a.now + 1))
          rw [mem_due]
          intro hm
          have := hu _ hm
          simp only [Option.some.injEq] at this
          omega
        · show _ ∈ List.filter _ _
          rw [List.mem_filter]
          refine ⟨h, ?_⟩
          simp only [ne_eq, Option.some.injEq, decide_not, Bool.not_eq_eq_eq_not, Bool.not_true, decide_eq_false_iff_not]
          omega
        · exact fun e' h' => hu e' (List.mem_of_mem_filter h')
      | block u n =>
        have ht : ticks (.block u n :: es) = ticks es := by simp [ticks]
        rw [ht]
        unfold DelaySpec.step
        dsimp only
        by_cases hc : u ∈ a.wait.map (·.1) ∨ n = 0
        · rw [if_pos hc]
          exact ⟨by simp, h, hu, rfl⟩
        · rw [if_neg hc]
          push Not at hc
          refine ⟨by simp, by simp [h], ?_, rfl⟩
          intro e' h'
          simp only [List.mem_append, List.mem_singleton, Prod.mk.injEq] at h'
          rcases h' with h' | ⟨h', -⟩
          · exact hu e' h'
          · exact absurd (List.mem_map.2 ⟨_, h, h'⟩) hc.1
      | event u =>
        have ht : ticks (.event u :: es) = ticks es := by simp [ticks]
        have hne : t ≠ u := fun h => hev.1 (by rw [h])
        rw [ht]
        refine ⟨by simp [DelaySpec.step], ?_, ?_, rfl⟩
        · show _ ∈ List.filter _ _
          rw [List.mem_filter]
          exact ⟨h, by simpa using hne⟩
        · exact fun e' h' => hu e' (List.mem_of_mem_filter h')
    obtain ⟨h1, h2, h3, h4⟩ := hstep
    obtain ⟨g1, g2, g3, g4⟩ := ih _ h2 h3 hev.2 (by omega)
    refine ⟨?_, g2, g3, by simp only [DelaySpec.run]; omega⟩
    intro w hw
    simp only [DelaySpec.run, List.mem_cons] at hw
    rcases hw with rfl | hw
    · exact h1
    · exact g1 w hw

/-- **C102, one wait.** A task that begins to wait for `n` ticks (1 to 2^32 - 2), and for which
no event comes, is not woken by any of the next `n` - 1 ticks and is woken by the `n`-th,
whatever the counter's value and whatever the other tasks do. -/
theorem C102_wait (t0 : Nat) (h0 : t0 < 2 ^ 32) (pre post : List Ev) (t n : Nat) (hn : 0 < n) (hn' : n < 2 ^ 32 - 1)
    (hv : ∀ e ∈ pre ++ post, Valid e) (hev : .event t ∉ post) (hticks : ticks post = n - 1)
    (ws : List (List Nat)) (s : St) (hpre : run (start t0) pre = .ok (ws, s)) (hw : waiting s t = false) :
    ∃ ws' woken s', run s (.block t n :: (post ++ [.tick])) = .ok (ws' ++ [woken], s') ∧ (∀ w ∈ ws', t ∉ w) ∧ t ∈ woken := by
  obtain ⟨s1, h1, hr⟩ := run_rel pre (start t0) ⟨t0, []⟩ (start_rel t0 h0) (fun e h => hv e (by simp [h]))
  rw [hpre] at h1
  obtain ⟨-, rfl⟩ : ws = _ ∧ s = s1 := by injection h1 with h; injection h with h h'; exact ⟨h, h'⟩
  generalize (DelaySpec.run ⟨t0, []⟩ pre).2 = a at hr
  obtain ⟨s2, h2, -⟩ := run_rel (.block t n :: (post ++ [.tick])) s a hr (by
    intro e he
    simp only [List.mem_cons, List.mem_append, List.not_mem_nil, or_false] at he
    rcases he with rfl | he | rfl
    · show n < 2 ^ 32; omega
    · exact hv e (by simp [he])
    · trivial)
  have hnot : t ∉ a.wait.map (·.1) := by rw [← hr.waiting t, hw]; simp
  let b : Abs := { a with wait := a.wait ++ [(t, some (a.now + n))] }
  have hb : DelaySpec.step a (.block t n) = ([], b) := by
    unfold DelaySpec.step
    dsimp only
    rw [if_neg (by push Not; exact ⟨hnot, by omega⟩), if_neg (by omega)]
  obtain ⟨g1, g2, g3, g4⟩ := spec_wait t (a.now + n) post b (by simp [b]) (by
    intro e he
    simp only [b, List.mem_append, List.mem_singleton, Prod.mk.injEq, true_and] at he
    rcases he with he | rfl
    · exact absurd (List.mem_map.2 ⟨_, he, rfl⟩) hnot
    · rfl) hev (by show a.now + _ < _; omega)
  refine ⟨[] :: (DelaySpec.run b post).1, (DelaySpec.step (DelaySpec.run b post).2 .tick).1, s2, ?_, ?_, ?_⟩
  · rw [h2]
    simp only [DelaySpec.run, hb, spec_append]
    rfl
  · intro w hw'
    rcases List.mem_cons.1 hw' with rfl | hw'
    · simp
    · exact g1 w hw'
  · show t ∈ due _ _
    rw [mem_due]
    have : (DelaySpec.run b post).2.now + 1 = a.now + n := by rw [g4]; show a.now + _ + 1 = _; omega
    rw [this]
    exact g2

/-- Three ticks before the counter wraps, two tasks wait for 5 and 2 ticks, a third without
limit: the second is woken by the second tick, the first by the fifth, after the wrap. -/
example : (run (start 4294967293) [.block 1 5, .block 2 2, .block 3 4294967295, .tick, .tick, .tick, .tick, .tick,
    .tick]).toOption.map (fun r => (r.1, r.2.tick)) =
    some ([[], [], [], [], [2], [], [], [1], []], 3) := by decide +kernel

end Verif.Delay
