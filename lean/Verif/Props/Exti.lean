import Verif.Spec.Exti
import Mathlib.Tactic.SplitIfs
import Mathlib.Tactic.ByContra

set_option autoImplicit false

/-!
# C128: every edge on an interrupt pin is followed by its callback, and no callback comes without one
-/

namespace Verif.Exti

open Verif.Exti.Spec Verif.Vectors

/-- The steps for a list of pins. -/
def triples : List Nat → List Op
  | [] => []
  | p :: l => .test p :: .clear p :: .call p :: triples l

theorem program_EXTI4 : program .EXTI4 = triples [4] := rfl
theorem program_EXTI9_5 : program .EXTI9_5 = triples [9] := rfl
theorem program_EXTI15_10 : program .EXTI15_10 = triples [10, 14, 15] := rfl

theorem rising_lt (p : Nat) (h : p ∈ rising) : p < 32 := by
  have : ∀ p ∈ rising, p < 32 := by decide
  exact this p h

theorem pinMask_get (p q : Nat) (hp : p < 32) : (pinMask p).getLsbD q = decide (q = p) := by
  unfold pinMask
  rw [BitVec.getLsbD_shiftLeft]
  by_cases h : q = p
  · subst h
    simp [hp]
  · by_cases hlt : q < p
    · simp [hlt, h]
    · have : q - p ≠ 0 := by omega
      simp [this, h]

theorem masked (x : BitVec 32) (p : Nat) (hp : p < 32) :
    x &&& pinMask p ≠ 0#32 ↔ x.getLsbD p = true := by
  constructor
  · intro h
    by_contra hc
    apply h
    apply BitVec.eq_of_getLsbD_eq
    intro q hq
    rw [BitVec.getLsbD_and, pinMask_get p q hp]
    by_cases e : q = p
    · subst e
      simp [hc]
    · simp [e]
  · intro h hz
    have := congrArg (fun y => y.getLsbD p) hz
    simp only [BitVec.getLsbD_and, pinMask_get p p hp, h] at this
    simp at this

theorem set_get (x : BitVec 32) (p q : Nat) (hp : p < 32) :
    (x ||| pinMask p).getLsbD q = (x.getLsbD q || decide (q = p)) := by
  rw [BitVec.getLsbD_or, pinMask_get p q hp]

theorem clear_get (x : BitVec 32) (p q : Nat) (hp : p < 32) :
    (x &&& ~~~pinMask p).getLsbD q = (x.getLsbD q && !decide (q = p)) := by
  rw [BitVec.getLsbD_and, BitVec.getLsbD_not, pinMask_get p q hp]
  by_cases hq : q < 32
  · simp [hq]
  · rw [BitVec.getLsbD_of_ge x q (by omega)]
    simp

/-- Where a handler can be; `c` is the line whose bit has been cleared and whose callback is due. -/
inductive At (s : St) : Option Nat → Prop where
  | between (ps : List Nat) (h : s.ops = triples ps) (hps : ∀ p ∈ ps, p ∈ rising) : At s none
  | clearing (q : Nat) (ps : List Nat) (hq : q ∈ rising) (h : s.ops = .clear q :: .call q :: triples ps)
      (hps : ∀ p ∈ ps, p ∈ rising) (hset : s.pr.getLsbD q = true) : At s none
  | calling (q : Nat) (ps : List Nat) (hq : q ∈ rising) (h : s.ops = .call q :: triples ps)
      (hps : ∀ p ∈ ps, p ∈ rising) : At s (some q)

structure Inv (s : St) (c : Option Nat) : Prop where
  at_ : At s c
  lines : ∀ p, s.pr.getLsbD p = true → p ∈ rising
  due : ∀ p, owed p s.log = true → s.pr.getLsbD p = true ∨ c = some p
  count : ∀ p, calls p s.log + (s.pr.getLsbD p).toNat + (decide (c = some p)).toNat ≤ edges p s.log

theorem inv_init : Inv init none := by
  refine ⟨.between [] rfl (by simp), ?_, ?_, ?_⟩
  · intro p h
    simp [init] at h
  · intro p h
    simp [init, owed] at h
  · intro p
    simp [init, calls, edges]

theorem owed_edge (p q : Nat) (l : List Obs) :
    owed p (.edge q :: l) = (decide (p = q) || owed p l) := by
  simp only [owed]
  by_cases h : q = p
  · rw [if_pos h]; simp [h]
  · rw [if_neg h]
    have : ¬ p = q := fun e => h e.symm
    simp [this]

theorem owed_call (p q : Nat) (l : List Obs) :
    owed p (.call q :: l) = (!decide (p = q) && owed p l) := by
  simp only [owed]
  by_cases h : q = p
  · rw [if_pos h]; simp [h]
  · rw [if_neg h]
    have : ¬ p = q := fun e => h e.symm
    simp [this]

theorem edges_edge (p q : Nat) (l : List Obs) :
    edges p (.edge q :: l) = edges p l + (decide (p = q)).toNat := by
  unfold edges
  rw [List.countP_cons]
  by_cases h : p = q
  · subst h; simp
  · have : ¬ q = p := fun e => h e.symm
    simp [h, this]

theorem edges_call (p q : Nat) (l : List Obs) : edges p (.call q :: l) = edges p l := by
  unfold edges
  rw [List.countP_cons]
  simp

theorem calls_edge (p q : Nat) (l : List Obs) : calls p (.edge q :: l) = calls p l := by
  unfold calls
  rw [List.countP_cons]
  simp

theorem calls_call (p q : Nat) (l : List Obs) :
    calls p (.call q :: l) = calls p l + (decide (p = q)).toNat := by
  unfold calls
  rw [List.countP_cons]
  by_cases h : p = q
  · subst h; simp
  · have : ¬ q = p := fun e => h e.symm
    simp [h, this]

theorem inv_step (s : St) (c : Option Nat) (h : Inv s c) (e : Ev) : ∃ c', Inv (step s e) c' := by
  obtain ⟨hat, hl, hd, hc⟩ := h
  cases e with
  | edge p =>
    simp only [step]
    by_cases hp : p ∈ rising
    · rw [if_pos hp]
      have hlt := rising_lt p hp
      refine ⟨c, ?_, ?_, ?_, ?_⟩
      · cases hat with
        | between ps h hps => exact .between ps h hps
        | clearing q ps hq h hps hset =>
          refine .clearing q ps hq h hps ?_
          change (s.pr ||| pinMask p).getLsbD q = true
          rw [set_get _ _ _ hlt, hset, Bool.true_or]
        | calling q ps hq h hps => exact .calling q ps hq h hps
      · intro x hx
        change (s.pr ||| pinMask p).getLsbD x = true at hx
        rw [set_get _ _ _ hlt, Bool.or_eq_true] at hx
        rcases hx with hx | hx
        · exact hl x hx
        · rw [of_decide_eq_true hx]; exact hp
      · intro x hx
        change owed x (.edge p :: s.log) = true at hx
        change (s.pr ||| pinMask p).getLsbD x = true ∨ _
        rw [set_get _ _ _ hlt]
        rw [owed_edge] at hx
        by_cases e : x = p
        · left; simp [e]
        · have hx' : owed x s.log = true := by simpa [e] using hx
          rcases hd x hx' with h | h
          · left; simp [h]
          · right; exact h
      · intro x
        change calls x (.edge p :: s.log) + ((s.pr ||| pinMask p).getLsbD x).toNat + _ ≤
          edges x (.edge p :: s.log)
        rw [set_get _ _ _ hlt, calls_edge, edges_edge]
        have := hc x
        by_cases e : x = p
        · subst e
          cases hb : s.pr.getLsbD x <;> rw [hb] at this <;> simp at this ⊢ <;> omega
        · simpa [e] using this
    · rw [if_neg hp]
      exact ⟨c, hat, hl, hd, hc⟩
  | take i =>
    simp only [step]
    cases hops : s.ops with
    | cons o l => exact ⟨c, hat, hl, hd, hc⟩
    | nil =>
      dsimp only
      split_ifs with hi
      · cases hat with
        | between ps h hps =>
          refine ⟨none, ?_, hl, hd, hc⟩
          rcases hi with rfl | rfl | rfl
          · exact .between [4] program_EXTI4 (by decide)
          · exact .between [9] program_EXTI9_5 (by decide)
          · exact .between [10, 14, 15] program_EXTI15_10 (by decide)
        | clearing q ps hq h hps hset => rw [hops] at h; cases h
        | calling q ps hq h hps => rw [hops] at h; cases h
      · exact ⟨c, hat, hl, hd, hc⟩
  | go =>
    cases hat with
    | between ps h hps =>
      cases ps with
      | nil =>
        simp only [step, h, triples]
        exact ⟨none, .between [] h (by simp), hl, hd, hc⟩
      | cons q ps =>
        have hq := hps q (by simp)
        have hlt := rising_lt q hq
        simp only [step, h, triples]
        by_cases hm : s.pr &&& pinMask q ≠ 0#32
        · rw [if_pos hm]
          exact ⟨none, .clearing q ps hq rfl (fun p hp => hps p (by simp [hp]))
            ((masked _ _ hlt).1 hm), hl, hd, hc⟩
        · rw [if_neg hm]
          exact ⟨none, .between ps rfl (fun p hp => hps p (by simp [hp])), hl, hd, hc⟩
    | clearing q ps hq h hps hset =>
      have hlt := rising_lt q hq
      simp only [step, h]
      refine ⟨some q, .calling q ps hq rfl hps, ?_, ?_, ?_⟩
      · intro x hx
        change (s.pr &&& ~~~pinMask q).getLsbD x = true at hx
        rw [clear_get _ _ _ hlt, Bool.and_eq_true] at hx
        exact hl x hx.1
      · intro x hx
        change (s.pr &&& ~~~pinMask q).getLsbD x = true ∨ _
        rw [clear_get _ _ _ hlt]
        rcases hd x hx with h | h
        · by_cases e : x = q
          · right; rw [e]
          · left; simp [h, e]
        · cases h
      · intro x
        change calls x s.log + ((s.pr &&& ~~~pinMask q).getLsbD x).toNat + _ ≤ edges x s.log
        rw [clear_get _ _ _ hlt]
        have := hc x
        by_cases e : x = q
        · subst e
          rw [hset] at this
          simp at this ⊢
          exact this
        · have e' : ¬ q = x := fun h => e h.symm
          simpa [e, e'] using this
    | calling q ps hq h hps =>
      simp only [step, h]
      refine ⟨none, .between ps rfl hps, hl, ?_, ?_⟩
      · intro x hx
        change owed x (.call q :: s.log) = true at hx
        rw [owed_call, Bool.and_eq_true] at hx
        rcases hd x hx.2 with h | h
        · exact Or.inl h
        · have : q = x := by simpa using h
          subst this
          simp at hx
      · intro x
        change calls x (.call q :: s.log) + (s.pr.getLsbD x).toNat + _ ≤ edges x (.call q :: s.log)
        rw [calls_call, edges_call]
        have := hc x
        by_cases e : x = q
        · subst e
          simp at this ⊢
          omega
        · have e' : ¬ q = x := fun h => e h.symm
          simpa [e, e'] using this

theorem inv_run (es : List Ev) (s : St) (h : ∃ c, Inv s c) : ∃ c, Inv (run s es) c := by
  induction es generalizing s with
  | nil => exact h
  | cons e es ih =>
    obtain ⟨c, hc⟩ := h
    exact ih _ (inv_step s c hc e)

/-- **C128.**  However edges, interrupts and steps of handlers are interleaved: as long as a line has
had an edge after its last callback, its bit is pending, so that the interrupt is taken, or its
callback is the very next thing the running handler does. -/
theorem C128_no_edge_lost (es : List Ev) (p : Nat) (h : owed p (run init es).log = true) :
    (run init es).pr.getLsbD p = true ∨ (run init es).ops.head? = some (.call p) := by
  obtain ⟨c, hat, hl, hd, hc⟩ := inv_run es init ⟨none, inv_init⟩
  rcases hd p h with h | h
  · exact Or.inl h
  · subst h
    cases hat with
    | calling q ps hq h hps => right; rw [h]; rfl

/-- **C128.**  There are never more callbacks for a line than there were edges on it. -/
theorem C128_no_callback_made_up (es : List Ev) (p : Nat) :
    calls p (run init es).log ≤ edges p (run init es).log := by
  obtain ⟨c, hat, hl, hd, hc⟩ := inv_run es init ⟨none, inv_init⟩
  have := hc p
  omega

/-! ## Without further edges -/

theorem serve_none (s : St) (h : next s = none) (k : Nat) : serve k s = s := by
  cases k with
  | zero => rfl
  | succ k => simp only [serve, h]

theorem serve_add (j k : Nat) (s : St) : serve (j + k) s = serve k (serve j s) := by
  induction j generalizing s with
  | zero => rw [Nat.zero_add]; rfl
  | succ j ih =>
    rw [Nat.add_right_comm]
    cases h : next s with
    | none =>
      rw [serve_none s h, serve_none s h, serve_none s h]
    | some e =>
      simp only [serve, h]
      exact ih _

theorem inv_serve (k : Nat) (s : St) (h : ∃ c, Inv s c) : ∃ c, Inv (serve k s) c := by
  induction k generalizing s with
  | zero => exact h
  | succ k ih =>
    simp only [serve]
    cases next s with
    | none => exact h
    | some e =>
      obtain ⟨c, hc⟩ := h
      exact ih _ (inv_step s c hc e)

theorem serve_go (k : Nat) (s : St) (o : Op) (l : List Op) (h : s.ops = o :: l) :
    serve (k + 1) s = serve k (step s .go) := by
  have : next s = some .go := by simp only [next, h]
  simp only [serve, this]

/-- From between two pins the handler comes to its end and clears the pins that are left. -/
theorem finish (ps : List Nat) (hps : ∀ p ∈ ps, p ∈ rising) (s : St) (h : s.ops = triples ps) :
    ∃ k, k ≤ 3 * ps.length ∧ (serve k s).ops = [] ∧
      (∀ p, (serve k s).pr.getLsbD p = true → s.pr.getLsbD p = true ∧ p ∉ ps) := by
  induction ps generalizing s with
  | nil => exact ⟨0, Nat.le_refl _, h, fun p hp => ⟨hp, by simp⟩⟩
  | cons q ps ih =>
    have hq := hps q (by simp)
    have hlt := rising_lt q hq
    by_cases hm : s.pr &&& pinMask q ≠ 0#32
    · have h1 : step s .go = { s with ops := .clear q :: .call q :: triples ps } := by
        simp only [step, h, triples]; rw [if_pos hm]
      have h2 : step { s with ops := .clear q :: .call q :: triples ps } .go =
          { s with pr := s.pr &&& ~~~pinMask q, ops := .call q :: triples ps } := rfl
      have h3 : step { s with pr := s.pr &&& ~~~pinMask q, ops := .call q :: triples ps } .go =
          { s with pr := s.pr &&& ~~~pinMask q, ops := triples ps, log := .call q :: s.log } := rfl
      obtain ⟨k, hk, ho, hp⟩ := ih (fun p hp => hps p (by simp [hp]))
        { s with pr := s.pr &&& ~~~pinMask q, ops := triples ps, log := .call q :: s.log } rfl
      have e : serve (k + 1 + 1 + 1) s = serve k
          { s with pr := s.pr &&& ~~~pinMask q, ops := triples ps, log := .call q :: s.log } := by
        rw [serve_go _ s _ _ (by rw [h]; rfl), h1, serve_go _ _ _ _ rfl, h2, serve_go _ _ _ _ rfl, h3]
      refine ⟨k + 1 + 1 + 1, by rw [List.length_cons]; omega, by rw [e]; exact ho, fun p hpp => ?_⟩
      rw [e] at hpp
      obtain ⟨g1, g2⟩ := hp p hpp
      change (s.pr &&& ~~~pinMask q).getLsbD p = true at g1
      rw [clear_get _ _ _ hlt, Bool.and_eq_true] at g1
      have : p ≠ q := by simpa using g1.2
      exact ⟨g1.1, by simp [this, g2]⟩
    · have h1 : step s .go = { s with ops := triples ps } := by
        simp only [step, h, triples]; rw [if_neg hm]; rfl
      obtain ⟨k, hk, ho, hp⟩ := ih (fun p hp => hps p (by simp [hp])) { s with ops := triples ps } rfl
      have e : serve (k + 1) s = serve k { s with ops := triples ps } := by
        rw [serve_go _ s _ _ (by rw [h]; rfl), h1]
      refine ⟨k + 1, by rw [List.length_cons]; omega, by rw [e]; exact ho, fun p hpp => ?_⟩
      rw [e] at hpp
      obtain ⟨g1, g2⟩ := hp p hpp
      change s.pr.getLsbD p = true at g1
      have : p ≠ q := by
        rintro rfl
        exact hm ((masked _ _ hlt).2 g1)
      exact ⟨g1, by simp [this, g2]⟩

/-- From anywhere the handler comes to its end. -/
theorem finish_any (s : St) (c : Option Nat) (h : Inv s c) :
    ∃ k, (serve k s).ops = [] ∧ (∀ p, (serve k s).pr.getLsbD p = true → s.pr.getLsbD p = true) := by
  obtain ⟨hat, -, -, -⟩ := h
  cases hat with
  | between ps h hps =>
    obtain ⟨k, -, ho, hp⟩ := finish ps hps s h
    exact ⟨k, ho, fun p hpp => (hp p hpp).1⟩
  | clearing q ps hq h hps hset =>
    have hlt := rising_lt q hq
    have h1 : step s .go = { s with pr := s.pr &&& ~~~pinMask q, ops := .call q :: triples ps } := by
      simp only [step, h]
    obtain ⟨k, -, ho, hp⟩ := finish ps hps
      { s with pr := s.pr &&& ~~~pinMask q, ops := triples ps, log := .call q :: s.log } rfl
    have e : serve (k + 1 + 1) s = serve k
        { s with pr := s.pr &&& ~~~pinMask q, ops := triples ps, log := .call q :: s.log } := by
      rw [serve_go _ s _ _ h, h1, serve_go _ _ _ _ rfl]
      rfl
    refine ⟨k + 1 + 1, by rw [e]; exact ho, fun p hpp => ?_⟩
    rw [e] at hpp
    have g1 := (hp p hpp).1
    change (s.pr &&& ~~~pinMask q).getLsbD p = true at g1
    rw [clear_get _ _ _ hlt, Bool.and_eq_true] at g1
    exact g1.1
  | calling q ps hq h hps =>
    have h1 : step s .go = { s with ops := triples ps, log := .call q :: s.log } := by
      simp only [step, h]
    obtain ⟨k, -, ho, hp⟩ := finish ps hps { s with ops := triples ps, log := .call q :: s.log } rfl
    have e : serve (k + 1) s = serve k { s with ops := triples ps, log := .call q :: s.log } := by
      rw [serve_go _ s _ _ h, h1]
    refine ⟨k + 1, by rw [e]; exact ho, fun p hpp => ?_⟩
    rw [e] at hpp
    exact (hp p hpp).1

/-- One interrupt is taken and its handler runs to its end. -/
theorem stage (i : Irq) (ps : List Nat) (hi : i = .EXTI4 ∨ i = .EXTI9_5 ∨ i = .EXTI15_10)
    (hprog : program i = triples ps) (hps : ∀ p ∈ ps, p ∈ rising) (s : St) (h0 : s.ops = [])
    (hn : next s = some (.take i)) :
    ∃ k, (serve k s).ops = [] ∧
      (∀ p, (serve k s).pr.getLsbD p = true → s.pr.getLsbD p = true ∧ p ∉ ps) := by
  have h1 : step s (.take i) = { s with ops := program i } := by
    simp only [step, h0]; rw [if_pos hi]
  obtain ⟨k, -, ho, hp⟩ := finish ps hps { s with ops := program i } hprog
  refine ⟨k + 1, ?_, ?_⟩
  · simp only [serve, hn, h1]
    exact ho
  · intro p hpp
    simp only [serve, hn, h1] at hpp
    exact hp p hpp

theorem serve_log (k : Nat) (s : St) :
    ∃ new, (serve k s).log = new ++ s.log ∧ ∀ o ∈ new, ∃ p, o = .call p := by
  induction k generalizing s with
  | zero => exact ⟨[], rfl, by simp⟩
  | succ k ih =>
    simp only [serve]
    have one : ∀ e, next s = some e → ∃ new, (step s e).log = new ++ s.log ∧ ∀ o ∈ new, ∃ p, o = .call p := by
      intro e he
      cases hops : s.ops with
      | nil =>
        simp only [next, hops] at he
        split_ifs at he <;> (cases he; refine ⟨[], ?_, by simp⟩; simp [step, hops])
      | cons o l =>
        simp only [next, hops] at he
        cases he
        cases o with
        | test p => simp only [step, hops]; split_ifs <;> exact ⟨[], rfl, by simp⟩
        | clear p => simp only [step, hops]; exact ⟨[], rfl, by simp⟩
        | call p => simp only [step, hops]; exact ⟨[.call p], rfl, by simp⟩
    cases hn : next s with
    | none => exact ⟨[], rfl, by simp⟩
    | some e =>
      obtain ⟨n1, h1, g1⟩ := one e hn
      obtain ⟨n2, h2, g2⟩ := ih (step s e)
      refine ⟨n2 ++ n1, ?_, ?_⟩
      · simp only
        rw [h2, h1, List.append_assoc]
      · intro o ho
        rcases List.mem_append.1 ho with ho | ho
        · exact g2 o ho
        · exact g1 o ho

/-- **C128.**  Whenever the edges pause, the processor comes to rest after finitely many steps: no
interrupt repeats by itself, and by then every edge has been followed by a callback for its line. -/
theorem C128_served (es : List Ev) :
    ∃ k, next (serve k (run init es)) = none ∧ (serve k (run init es)).pr = 0#32 ∧
      (∀ p, owed p (serve k (run init es)).log = false) ∧
      ∃ new, (serve k (run init es)).log = new ++ (run init es).log ∧ ∀ o ∈ new, ∃ p, o = .call p := by
  obtain ⟨c, hinv⟩ := inv_run es init ⟨none, inv_init⟩
  generalize run init es = s at hinv ⊢
  -- the running handler ends
  obtain ⟨k0, ho0, hp0⟩ := finish_any s c hinv
  have line0 : ∀ p, (serve k0 s).pr.getLsbD p = true → p ∈ rising := by
    obtain ⟨c0, h0⟩ := inv_serve k0 s ⟨c, hinv⟩
    exact h0.lines
  -- line 4
  have s1 : ∃ k, (serve k (serve k0 s)).ops = [] ∧ ∀ p, (serve k (serve k0 s)).pr.getLsbD p = true →
      (serve k0 s).pr.getLsbD p = true ∧ p ≠ 4 := by
    by_cases h : (serve k0 s).pr.getLsbD 4 = true
    · obtain ⟨k, a, b⟩ := stage .EXTI4 [4] (by decide) program_EXTI4 (by decide) (serve k0 s) ho0
        (by simp only [next, ho0]; rw [if_pos (by simpa [asks] using h)])
      exact ⟨k, a, fun p hp => ⟨(b p hp).1, by simpa using (b p hp).2⟩⟩
    · exact ⟨0, ho0, fun p hp => ⟨hp, by rintro rfl; exact h hp⟩⟩
  obtain ⟨k1, ho1, hp1⟩ := s1
  rw [← serve_add] at ho1 hp1
  generalize hk1 : k0 + k1 = j1 at ho1 hp1
  have n4 : asks (serve j1 s) [4] = false := by
    cases h : (serve j1 s).pr.getLsbD 4 with
    | false => simp only [asks, List.any_cons, List.any_nil, h, Bool.or_false]
    | true => exact absurd rfl (hp1 4 h).2
  -- line 9
  have s2 : ∃ k, (serve k (serve j1 s)).ops = [] ∧ ∀ p, (serve k (serve j1 s)).pr.getLsbD p = true →
      (serve j1 s).pr.getLsbD p = true ∧ p ≠ 9 := by
    by_cases h : (serve j1 s).pr.getLsbD 9 = true
    · obtain ⟨k, a, b⟩ := stage .EXTI9_5 [9] (by decide) program_EXTI9_5 (by decide) (serve j1 s) ho1
        (by
          simp only [next, ho1]
          rw [if_neg (by rw [n4]; decide), if_pos (by simp [asks, h])])
      exact ⟨k, a, fun p hp => ⟨(b p hp).1, by simpa using (b p hp).2⟩⟩
    · exact ⟨0, ho1, fun p hp => ⟨hp, by rintro rfl; exact h hp⟩⟩
  obtain ⟨k2, ho2, hp2⟩ := s2
  rw [← serve_add] at ho2 hp2
  generalize hk2 : j1 + k2 = j2 at ho2 hp2
  have left2 : ∀ p, (serve j2 s).pr.getLsbD p = true → p = 10 ∨ p = 14 ∨ p = 15 := by
    intro p hp
    obtain ⟨a, b⟩ := hp2 p hp
    obtain ⟨a', b'⟩ := hp1 p a
    have := line0 p a'
    simp only [rising, List.mem_cons, List.not_mem_nil, or_false] at this
    omega
  have n4' : asks (serve j2 s) [4] = false := by
    cases h : (serve j2 s).pr.getLsbD 4 with
    | false => simp only [asks, List.any_cons, List.any_nil, h, Bool.or_false]
    | true => have := left2 4 h; omega
  have n9' : asks (serve j2 s) [5, 6, 7, 8, 9] = false := by
    have : ∀ p, p ≠ 10 → p ≠ 14 → p ≠ 15 → (serve j2 s).pr.getLsbD p = false := by
      intro p h1 h2 h3
      cases h : (serve j2 s).pr.getLsbD p with
      | false => rfl
      | true => have := left2 p h; omega
    simp only [asks, List.any_cons, List.any_nil, this 5 (by decide) (by decide) (by decide),
      this 6 (by decide) (by decide) (by decide), this 7 (by decide) (by decide) (by decide),
      this 8 (by decide) (by decide) (by decide), this 9 (by decide) (by decide) (by decide), Bool.or_false]
  -- lines 10, 14, 15
  have s3 : ∃ k, (serve k (serve j2 s)).ops = [] ∧ ∀ p, (serve k (serve j2 s)).pr.getLsbD p = false := by
    by_cases h : (serve j2 s).pr.getLsbD 10 = true ∨ (serve j2 s).pr.getLsbD 14 = true ∨
        (serve j2 s).pr.getLsbD 15 = true
    · obtain ⟨k, a, b⟩ := stage .EXTI15_10 [10, 14, 15] (by decide) program_EXTI15_10 (by decide)
        (serve j2 s) ho2
        (by
          simp only [next, ho2]
          rw [if_neg (by rw [n4']; decide), if_neg (by rw [n9']; decide), if_pos (by
            rcases h with h | h | h <;> simp [asks, h])])
      refine ⟨k, a, fun p => ?_⟩
      cases hb : (serve k (serve j2 s)).pr.getLsbD p with
      | false => rfl
      | true =>
        obtain ⟨x, y⟩ := b p hb
        have := left2 p x
        simp at y
        omega
    · refine ⟨0, ho2, fun p => ?_⟩
      change (serve j2 s).pr.getLsbD p = false
      cases hb : (serve j2 s).pr.getLsbD p with
      | false => rfl
      | true =>
        rcases left2 p hb with rfl | rfl | rfl
        · exact absurd (Or.inl hb) h
        · exact absurd (Or.inr (Or.inl hb)) h
        · exact absurd (Or.inr (Or.inr hb)) h
  obtain ⟨k3, ho3, hp3⟩ := s3
  rw [← serve_add] at ho3 hp3
  generalize hk3 : j2 + k3 = j3 at ho3 hp3
  have hz : (serve j3 s).pr = 0#32 := by
    apply BitVec.eq_of_getLsbD_eq
    intro p hp
    rw [hp3]
    simp
  refine ⟨j3, ?_, hz, ?_, serve_log j3 s⟩
  · simp [next, ho3, asks, hp3]
  · intro p
    obtain ⟨c3, hat, -, hd, -⟩ := inv_serve j3 s ⟨c, hinv⟩
    cases hb : owed p (serve j3 s).log with
    | false => rfl
    | true =>
      rcases hd p hb with h | h
      · rw [hp3] at h; cases h
      · subst h
        cases hat with
        | calling q ps hq h hps => rw [ho3] at h; cases h

/-- Two lines of one interrupt, the second edge while the handler is at work on the first, and a third
edge between the clearing of its line and its callback: that line is called once more. -/
example :
    let s := run init [.edge 10, .take .EXTI15_10, .go, .edge 15, .go, .edge 10, .go]
    let t := serve 30 s
    s.ops.length = 6 ∧ t.log.reverse = [.edge 10, .edge 15, .edge 10, .call 10, .call 15, .call 10] ∧
      next t = none := by
  decide +kernel

end Verif.Exti
