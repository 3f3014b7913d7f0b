import Verif.Spec.TimIrq
import Verif.Props.TaskTimer
import Mathlib.Tactic.SplitIfs
import Mathlib.Tactic.ByContra

set_option autoImplicit false

/-!
# C145: every update event of a timer is followed by its callback, and no callback comes without one
-/

namespace Verif.TimIrq

open Verif.TimIrq.Spec

/-- The block of the update event. -/
def P : Block := ⟨0x1#32, 0x1#32, 0x1#32, .period⟩

/-- The update flag. -/
def U (s : St) : Bool := s.sr.getLsbD 0

theorem one_get (i : Nat) : (1#32).getLsbD i = decide (i = 0) := by
  by_cases h : i = 0
  · subst h; decide
  · simp [h]

theorem test_one (x : BitVec 32) : x &&& 1#32 = 1#32 ↔ x.getLsbD 0 = true := by
  constructor
  · intro h
    have := congrArg (fun y => y.getLsbD 0) h
    simpa using this
  · intro h
    apply BitVec.eq_of_getLsbD_eq
    intro i hi
    rw [BitVec.getLsbD_and, one_get]
    by_cases e : i = 0
    · subst e; simp [h]
    · simp [e]

theorem blocks_ne {b : Block} (hb : b ∈ blocks) (hne : b ≠ P) : 1#32 &&& b.source ≠ b.source := by
  have : ∀ b ∈ blocks, b ≠ P → 1#32 &&& b.source ≠ b.source := by decide
  exact this b hb hne

theorem zero_ne {b : Block} (hb : b ∈ blocks) : 0#32 &&& b.source ≠ b.source := by
  have : ∀ b ∈ blocks, 0#32 &&& b.source ≠ b.source := by decide
  exact this b hb

/-- Where the handler can be; `c`: the flag has been cleared and the callback is due. -/
inductive At (s : St) : Bool → Prop where
  | between (bs : List Block) (h : s.ops = bs.flatMap ofBlock) (hbs : ∀ b ∈ bs, b ∈ blocks) : At s false
  | source (b : Block) (bs : List Block) (hb : b ∈ blocks)
      (h : s.ops = .source b :: .clear b :: .call b :: bs.flatMap ofBlock) (hbs : ∀ b ∈ bs, b ∈ blocks)
      (hset : b = P → U s = true) : At s false
  | clear (bs : List Block) (h : s.ops = .clear P :: .call P :: bs.flatMap ofBlock) (hbs : ∀ b ∈ bs, b ∈ blocks)
      (hset : U s = true) : At s false
  | call (bs : List Block) (h : s.ops = .call P :: bs.flatMap ofBlock) (hbs : ∀ b ∈ bs, b ∈ blocks) : At s true

structure Inv (s : St) (c : Bool) : Prop where
  at_ : At s c
  dier : s.dier = 0#32 ∨ s.dier = 1#32
  due : owed s.log = true → U s = true ∨ c = true
  count : periods s.log + (U s).toNat + c.toNat ≤ updates s.log
  only : ∀ k, k ≠ .period → Obs.call k ∉ s.log
  exact : Apart s.log → periods s.log + (U s).toNat + c.toNat = updates s.log ∧
    (owed s.log).toNat = (U s).toNat + c.toNat

theorem inv_init : Inv init false :=
  ⟨.between [] rfl (by simp), .inl rfl, by simp [init, owed], by simp [init, periods, updates, U], by simp [init],
    by simp [init, periods, updates, U, owed]⟩

theorem inv_congr {s s' : St} {c : Bool} (h : Inv s c) (h1 : U s' = U s) (h2 : s'.ops = s.ops)
    (h3 : s'.dier = 0#32 ∨ s'.dier = 1#32) (h4 : s'.log = s.log) : Inv s' c := by
  obtain ⟨ha, -, b, d, e, f⟩ := h
  refine ⟨?_, h3, by rw [h4, h1]; exact b, by rw [h4, h1]; exact d, by rw [h4]; exact e, by rw [h4, h1]; exact f⟩
  cases ha with
  | between bs h hbs => exact .between bs (h2.trans h) hbs
  | source q bs hb h hbs hset => exact .source q bs hb (h2.trans h) hbs (fun e => h1.trans (hset e))
  | clear bs h hbs hset => exact .clear bs (h2.trans h) hbs (h1.trans hset)
  | call bs h hbs => exact .call bs (h2.trans h) hbs

theorem inv_update {s s' : St} {c : Bool} (h : Inv s c) (h1 : U s' = true) (h2 : s'.ops = s.ops)
    (h3 : s'.dier = s.dier) (h4 : s'.log = .update :: s.log) : Inv s' c := by
  obtain ⟨ha, hd, b, d, e, f⟩ := h
  have p1 : periods (.update :: s.log) = periods s.log := by simp [periods]
  have p2 : updates (.update :: s.log) = updates s.log + 1 := by simp [updates]
  refine ⟨?_, by rw [h3]; exact hd, fun _ => .inl h1, ?_, ?_, ?_⟩
  · cases ha with
    | between bs h hbs => exact .between bs (h2.trans h) hbs
    | source q bs hb h hbs hset => exact .source q bs hb (h2.trans h) hbs (fun _ => h1)
    | clear bs h hbs hset => exact .clear bs (h2.trans h) hbs h1
    | call bs h hbs => exact .call bs (h2.trans h) hbs
  · rw [h4, h1, p1, p2]
    simp only [Bool.toNat_true]
    omega
  · intro k hk
    rw [h4]
    intro hm
    rcases List.mem_cons.mp hm with hm | hm
    · cases hm
    · exact e k hk hm
  · intro hap
    rw [h4] at hap
    obtain ⟨o1, o2⟩ := hap
    obtain ⟨q1, q2⟩ := f o2
    rw [o1] at q2
    simp only [Bool.toNat_false] at q2
    rw [h4, h1, p1, p2]
    simp only [Bool.toNat_true, owed]
    omega

theorem inv_step (s : St) (c : Bool) (h : Inv s c) (e : Ev) : ∃ c', Inv (step s e) c' := by
  cases e with
  | overflow => exact ⟨c, inv_update h (by simp [U, step]) rfl rfl rfl⟩
  | configure => exact ⟨c, inv_update h (by simp [U, step]) rfl rfl rfl⟩
  | flags f =>
    refine ⟨c, inv_congr h ?_ rfl h.dier rfl⟩
    simp [U, step]
  | enable =>
    refine ⟨c, inv_congr h rfl rfl ?_ rfl⟩
    rcases h.dier with d | d
    · right; simp only [step, d]; decide
    · right; simp only [step, d]; decide
  | take =>
    simp only [step]
    cases hops : s.ops with
    | cons o l => exact ⟨c, h⟩
    | nil =>
      obtain ⟨ha, hd, b, d, e, f⟩ := h
      cases ha with
      | between bs h hbs => exact ⟨false, .between blocks rfl (fun _ h => h), hd, b, d, e, f⟩
      | source b bs hb h hbs hset => rw [hops] at h; cases h
      | clear bs h hbs hset => rw [hops] at h; cases h
      | call bs h hbs => rw [hops] at h; cases h
  | go =>
    obtain ⟨ha, hd, b, d, e, f⟩ := h
    cases ha with
    | between bs h hbs =>
      cases bs with
      | nil =>
        simp only [step, h, List.flatMap_nil]
        exact ⟨false, .between [] h (by simp), hd, b, d, e, f⟩
      | cons q bs =>
        have hq := hbs q (by simp)
        have hr : ∀ b ∈ bs, b ∈ blocks := fun b hb => hbs b (by simp [hb])
        simp only [step, h, List.flatMap_cons, ofBlock, List.cons_append, List.nil_append]
        by_cases hm : s.sr &&& q.flag = q.flag
        · rw [if_pos hm]
          refine ⟨false, .source q bs hq rfl hr ?_, hd, b, d, e, f⟩
          rintro rfl
          exact (test_one _).1 hm
        · rw [if_neg hm]
          exact ⟨false, .between bs rfl hr, hd, b, d, e, f⟩
    | source q bs hq h hbs hset =>
      simp only [step, h]
      by_cases hm : s.dier &&& q.source = q.source
      · rw [if_pos hm]
        have hqP : q = P := by
          by_contra hne
          rcases hd with hd | hd
          · rw [hd] at hm; exact zero_ne hq hm
          · rw [hd] at hm; exact blocks_ne hq hne hm
        subst hqP
        exact ⟨false, .clear bs rfl hbs (hset rfl), hd, b, d, e, f⟩
      · rw [if_neg hm]
        exact ⟨false, .between bs rfl hbs, hd, b, d, e, f⟩
    | clear bs h hbs hset =>
      simp only [step, h]
      have hu : U { s with sr := s.sr &&& ~~~P.clear, ops := .call P :: bs.flatMap ofBlock } = false := by
        simp [U, P, BitVec.getLsbD_and]
      refine ⟨true, .call bs rfl hbs, hd, fun _ => .inr rfl, ?_, e, ?_⟩
      · rw [hu]; rw [hset] at d; simpa using d
      · intro hap
        rw [hu]
        have := f hap
        rw [hset] at this
        simpa using this
    | call bs h hbs =>
      simp only [step, h]
      have p1 : periods (.call P.cb :: s.log) = periods s.log + 1 := by simp [periods, P]
      have p2 : updates (.call P.cb :: s.log) = updates s.log := by simp [updates, P]
      have p3 : owed (.call P.cb :: s.log) = false := rfl
      have hu : ∀ l g, U { s with ops := l, log := g } = U s := fun _ _ => rfl
      refine ⟨false, .between bs rfl hbs, hd, ?_, ?_, ?_, ?_⟩
      · dsimp only; rw [p3]; intro h; cases h
      · dsimp only; rw [p1, p2, hu]; simp only [Bool.toNat_true, Bool.toNat_false] at d ⊢; omega
      · intro k hk hm
        rcases List.mem_cons.mp hm with hm | hm
        · apply hk; cases hm; rfl
        · exact e k hk hm
      · intro hap
        obtain ⟨q1, q2⟩ := f hap
        dsimp only
        rw [p1, p2, p3, hu]
        have : (owed s.log).toNat ≤ 1 := by cases owed s.log <;> decide
        simp only [Bool.toNat_true, Bool.toNat_false] at q1 q2 ⊢
        omega

theorem inv_run (es : List Ev) (s : St) (h : ∃ c, Inv s c) : ∃ c, Inv (run s es) c := by
  induction es generalizing s with
  | nil => exact h
  | cons e es ih =>
    obtain ⟨c, hc⟩ := h
    exact ih _ (inv_step s c hc e)

/-- **C145.** However the timer, the interrupt and the steps of the handler are interleaved: there are never more
callbacks than update events, and no callback of another kind, whatever other flags the timer sets. -/
theorem C145_no_callback_made_up (es : List Ev) :
    periods (run init es).log ≤ updates (run init es).log ∧
      ∀ k, k ≠ .period → Obs.call k ∉ (run init es).log := by
  obtain ⟨c, h⟩ := inv_run es init ⟨false, inv_init⟩
  exact ⟨by have := h.count; omega, h.only⟩

/-- **C145.** As long as there was an update event after the last callback, its flag is set or its callback is the
very next thing the running handler does. -/
theorem C145_no_update_lost (es : List Ev) (h : owed (run init es).log = true) :
    U (run init es) = true ∨ (run init es).ops.head? = some (.call P) := by
  obtain ⟨c, hat, hd, b, -⟩ := inv_run es init ⟨false, inv_init⟩
  rcases b h with h | h
  · exact .inl h
  · subst h
    cases hat with
    | call bs h hbs => right; rw [h]; rfl

/-! ## Without further events of the timer -/

theorem serve_none (s : St) (h : next s = none) (k : Nat) : serve k s = s := by
  cases k with
  | zero => rfl
  | succ k => simp only [serve, h]

theorem serve_add (j k : Nat) (s : St) : serve (j + k) s = serve k (serve j s) := by
  induction j generalizing s with
  | zero => rw [Nat.zero_add]; rfl
  | succ j ih =>
    rw [Nat.add_right_comm]
    cases h : next s with
    | none => rw [serve_none s h, serve_none s h, serve_none s h]
    | some e => simp only [serve, h]; exact ih _

/-- What serving never changes. -/
structure Kept (s s' : St) : Prop where
  inv : ∃ c, Inv s' c
  dier : s'.dier = s.dier
  log : ∃ n, s'.log = List.replicate n (.call .period) ++ s.log

/-- The flag is clear, or the running handler is going to clear it. -/
def Covers (s : St) : Prop := U s = false ∨ Op.clear P ∈ s.ops

theorem go_covers (s : St) (c : Bool) (h : Inv s c) (hd1 : s.dier = 1#32) (hc : Covers s) : Covers (step s .go) := by
  obtain ⟨ha, -, -, -, -, -⟩ := h
  have hu : ∀ l, U { s with ops := l } = U s := fun _ => rfl
  cases ha with
  | between bs h hbs =>
    cases bs with
    | nil => simp only [step, h, List.flatMap_nil]; exact hc
    | cons q bs =>
      unfold Covers at hc
      rw [h] at hc
      simp only [step, h, List.flatMap_cons, ofBlock, List.cons_append, List.nil_append] at hc ⊢
      by_cases hm : s.sr &&& q.flag = q.flag
      · rw [if_pos hm]
        rcases hc with hc | hc
        · exact .inl hc
        · right; simpa using hc
      · rw [if_neg hm]
        rcases hc with hc | hc
        · exact .inl hc
        · by_cases hq : q = P
          · subst hq
            left
            rw [hu]
            cases hx : U s with
            | false => rfl
            | true => exact absurd ((test_one _).2 hx) hm
          · right
            have hq' : ¬ P = q := fun e => hq e.symm
            simpa [hq'] using hc
  | source q bs hq h hbs hset =>
    unfold Covers at hc
    rw [h] at hc
    simp only [step, h]
    by_cases hm : s.dier &&& q.source = q.source
    · rw [if_pos hm]
      rcases hc with hc | hc
      · exact .inl hc
      · right; simpa using hc
    · rw [if_neg hm]
      rcases hc with hc | hc
      · exact .inl hc
      · right
        have hq' : ¬ P = q := by
          rintro rfl
          rw [hd1] at hm
          exact hm rfl
        simpa [hq'] using hc
  | clear bs h hbs hset =>
    simp only [step, h]
    left
    simp [U, P, BitVec.getLsbD_and]
  | call bs h hbs =>
    unfold Covers at hc
    rw [h] at hc
    simp only [step, h]
    rcases hc with hc | hc
    · exact .inl hc
    · right; simpa using hc

theorem go_kept (s : St) (c : Bool) (h : Inv s c) (hops : s.ops ≠ []) :
    Kept s (step s .go) ∧ (step s .go).ops.length < s.ops.length := by
  have hi := inv_step s c h .go
  refine ⟨⟨hi, ?_, ?_⟩, ?_⟩
  · simp only [step]
    split
    · rfl
    · split_ifs <;> rfl
    · split_ifs <;> rfl
    · rfl
    · rfl
  · obtain ⟨ha, -, -, -, -, -⟩ := h
    cases ha with
    | between bs h hbs =>
      cases bs with
      | nil => exact absurd h hops
      | cons q bs =>
        refine ⟨0, ?_⟩
        simp only [step, h, List.flatMap_cons, ofBlock, List.cons_append, List.nil_append]
        split_ifs <;> rfl
    | source q bs hq h hbs hset =>
      refine ⟨0, ?_⟩
      simp only [step, h]
      split_ifs <;> rfl
    | clear bs h hbs hset => exact ⟨0, by simp only [step, h]; rfl⟩
    | call bs h hbs => exact ⟨1, by simp only [step, h]; rfl⟩
  · simp only [step]
    split
    · rename_i e; exact absurd e hops
    · rename_i e; rw [e]; split_ifs <;> simp <;> omega
    · rename_i e; rw [e]; split_ifs <;> simp <;> omega
    · rename_i e; rw [e]; simp
    · rename_i e; rw [e]; simp

theorem kept_trans {a b c : St} (h1 : Kept a b) (h2 : Kept b c) : Kept a c := by
  obtain ⟨n, hn⟩ := h1.log
  obtain ⟨m, hm⟩ := h2.log
  refine ⟨h2.inv, h2.dier.trans h1.dier, m + n, ?_⟩
  rw [hm, hn, ← List.append_assoc, List.replicate_append_replicate]

/-- The handler comes to its end. -/
theorem finish : ∀ (n : Nat) (s : St), (∃ c, Inv s c) → s.ops.length ≤ n →
    ∃ k, (serve k s).ops = [] ∧ Kept s (serve k s) ∧ (s.dier = 1#32 → Covers s → Covers (serve k s))
  | n, s, hi, hn => by
    by_cases h0 : s.ops = []
    · exact ⟨0, h0, ⟨hi, rfl, 0, rfl⟩, fun _ h => h⟩
    · obtain ⟨c, hc⟩ := hi
      obtain ⟨hk, hl⟩ := go_kept s c hc h0
      cases n with
      | zero => omega
      | succ n =>
        obtain ⟨k, k1, k2, k3⟩ := finish n (step s .go) hk.inv (by omega)
        have e : serve (k + 1) s = serve k (step s .go) := by
          have : next s = some .go := by
            unfold next
            split
            · rfl
            · rename_i e; exact absurd e h0
          simp only [serve, this]
        refine ⟨k + 1, by rw [e]; exact k1, by rw [e]; exact kept_trans hk k2, fun hd hcov => ?_⟩
        rw [e]
        exact k3 (hk.dier.trans hd) (go_covers s c hc hd hcov)

theorem asks_U (s : St) (hd : s.dier = 1#32) : asks s = U s := by
  unfold asks
  simp only [blocks, List.any_cons, List.any_nil, hd]
  have e : ∀ x : BitVec 32, 1#32 &&& x = x ↔ (decide (1#32 &&& x = x)) = true := fun x => by simp
  simp only [show decide ((1#32 : BitVec 32) &&& 2#32 = 2#32) = false by decide,
    show decide ((1#32 : BitVec 32) &&& 4#32 = 4#32) = false by decide,
    show decide ((1#32 : BitVec 32) &&& 8#32 = 8#32) = false by decide,
    show decide ((1#32 : BitVec 32) &&& 16#32 = 16#32) = false by decide,
    show decide ((1#32 : BitVec 32) &&& 32#32 = 32#32) = false by decide,
    show decide ((1#32 : BitVec 32) &&& 64#32 = 64#32) = false by decide,
    show decide ((1#32 : BitVec 32) &&& 128#32 = 128#32) = false by decide,
    show decide ((1#32 : BitVec 32) &&& 1#32 = 1#32) = true by decide,
    Bool.and_false, Bool.and_true, Bool.false_or, Bool.or_false]
  cases h : U s with
  | true => exact decide_eq_true ((test_one _).2 h)
  | false => exact decide_eq_false (fun hx => by rw [U, (test_one _).1 hx] at h; cases h)

theorem dier_run : ∀ (es : List Ev) (s : St), s.dier = 0#32 ∨ s.dier = 1#32 → (.enable ∈ es ∨ s.dier = 1#32) →
    (run s es).dier = 1#32
  | [], s, _, h => by
    rcases h with h | h
    · cases h
    · exact h
  | e :: es, s, h0, h => by
    have hs : (step s e).dier = 0#32 ∨ (step s e).dier = 1#32 := by
      cases e with
      | enable => right; rcases h0 with d | d <;> (simp only [step, d]; decide)
      | overflow => exact h0
      | configure => exact h0
      | flags f => exact h0
      | take => simp only [step]; split <;> exact h0
      | go =>
        simp only [step]
        split
        · exact h0
        · split_ifs <;> exact h0
        · split_ifs <;> exact h0
        · exact h0
        · exact h0
    refine dier_run es _ hs ?_
    rcases h with h | h
    · rcases List.mem_cons.mp h with rfl | h
      · right; rcases h0 with d | d <;> (simp only [step, d]; decide)
      · exact .inl h
    · right
      cases e with
      | enable => simp only [step, h]; decide
      | overflow => exact h
      | configure => exact h
      | flags f => exact h
      | take => simp only [step]; split <;> exact h
      | go =>
        simp only [step]
        split
        · exact h
        · split_ifs <;> exact h
        · split_ifs <;> exact h
        · exact h
        · exact h

/-- **C145.** Once the timer has been started, then whenever it pauses the processor comes to rest after finitely many
steps: by then every update event has been followed by its callback, and if each came after the callback for the
one before, there were exactly as many callbacks as update events. -/
theorem C145_served (es : List Ev) (hstart : Ev.enable ∈ es) :
    ∃ k n, next (serve k (run init es)) = none ∧
      (serve k (run init es)).log = List.replicate n (.call .period) ++ (run init es).log ∧
      owed (serve k (run init es)).log = false ∧
      (Apart (run init es).log →
        periods (serve k (run init es)).log = updates (run init es).log) := by
  have hd := dier_run es init (.inl rfl) (.inl hstart)
  have hi := inv_run es init ⟨false, inv_init⟩
  generalize run init es = s at *
  -- the running handler ends
  obtain ⟨k1, a1, b1, -⟩ := finish _ s hi (Nat.le_refl _)
  -- and perhaps once more
  have two : ∃ k, (serve k s).ops = [] ∧ Kept s (serve k s) ∧ U (serve k s) = false := by
    cases hu : U (serve k1 s) with
    | false => exact ⟨k1, a1, b1, hu⟩
    | true =>
      have hn : next (serve k1 s) = some .take := by
        unfold next
        rw [a1, asks_U _ (b1.dier.trans hd), hu]; rfl
      have ht : step (serve k1 s) .take = { serve k1 s with ops := program } := by
        simp only [step, a1]
      obtain ⟨c1, hc1⟩ := b1.inv
      have hk1 : Kept (serve k1 s) (step (serve k1 s) .take) :=
        ⟨inv_step _ c1 hc1 .take, by rw [ht], 0, by rw [ht]; rfl⟩
      obtain ⟨k2, a2, b2, c2⟩ := finish _ (step (serve k1 s) .take) hk1.inv (Nat.le_refl _)
      refine ⟨k1 + (k2 + 1), ?_, ?_, ?_⟩ <;> rw [serve_add] <;> simp only [serve, hn]
      · exact a2
      · exact kept_trans b1 (kept_trans hk1 b2)
      · have := c2 (by rw [ht]; exact b1.dier.trans hd) (.inr (by rw [ht]; exact (by decide : Op.clear P ∈ program)))
        rcases this with h | h
        · exact h
        · rw [a2] at h; cases h
  obtain ⟨k, h1, h2, h3⟩ := two
  obtain ⟨n, hn⟩ := h2.log
  obtain ⟨c, hc⟩ := h2.inv
  have hc0 : c = false := by
    obtain ⟨ha, -⟩ := hc
    cases ha with
    | between bs h hbs => rfl
    | source q bs hq h hbs hset => rfl
    | clear bs h hbs hset => rfl
    | call bs h hbs => rw [h1] at h; cases h
  subst hc0
  refine ⟨k, n, ?_, hn, ?_, ?_⟩
  · unfold next
    rw [h1, asks_U _ (h2.dier.trans hd), h3]; rfl
  · cases ho : owed (serve k s).log with
    | false => rfl
    | true =>
      rcases hc.due ho with h | h
      · rw [h3] at h; cases h
      · cases h
  · intro hap
    have ap : ∀ n, Apart (List.replicate n (Obs.call .period) ++ s.log) := by
      intro n
      induction n with
      | zero => exact hap
      | succ n ih => exact ih
    have up : ∀ n, updates (List.replicate n (Obs.call .period) ++ s.log) = updates s.log := by
      intro n
      induction n with
      | zero => rfl
      | succ n ih => simpa [List.replicate_succ, updates] using ih
    obtain ⟨q, -⟩ := hc.exact (by rw [hn]; exact ap n)
    rw [h3] at q
    simp only [Bool.toNat_false, Nat.add_zero] at q
    rw [q, hn, up]

/-! ## The tasks -/

/-- **C145.** With the tasks `ts` registered at the task timer for timer `h` (C56; the first sixteen are accepted), the
callbacks so far have notified each of them once per callback, and those of another timer nobody. -/
theorem C145_notified (s0 : TaskTimer.St) (h : Nat) (ts : List Nat) (l : List Obs) :
    ∃ r t, TaskTimer.registerAll (TaskTimer.init s0 true (some h) true).2 ts = .ok (r, t) ∧
      (∃ ns, notified t h l = .ok ns ∧ ∀ task, ns.count task = periods l * (ts.take 16).count task) ∧
      ∀ other, other ≠ h → notified t other l = .ok [] := by
  obtain ⟨-, t, h1, h2, h3⟩ := TaskTimer.C56_notifications s0 h ts
  refine ⟨_, t, h1, ?_, ?_⟩
  · induction l with
    | nil => exact ⟨[], rfl, fun task => by simp [periods]⟩
    | cons o l ih =>
      obtain ⟨ns, e1, e2⟩ := ih
      have other : ∀ (hne : o ≠ .call .period), notified t h (o :: l) = notified t h l ∧ periods (o :: l) = periods l := by
        intro hne
        refine ⟨?_, by simp [periods, hne]⟩
        cases o with
        | update => rfl
        | call c => cases c <;> first | rfl | exact absurd rfl hne
      by_cases ho : o = .call .period
      · subst ho
        refine ⟨ns ++ ts.take 16, ?_, fun task => ?_⟩
        · simp only [notified, e1, h2]; rfl
        · rw [List.count_append, e2]
          have : periods (.call .period :: l) = periods l + 1 := by simp [periods]
          rw [this, Nat.add_mul, Nat.one_mul]
      · obtain ⟨g1, g2⟩ := other ho
        exact ⟨ns, g1.trans e1, fun task => by rw [g2]; exact e2 task⟩
  · intro other ho
    induction l with
    | nil => rfl
    | cons o l ih =>
      cases o with
      | update => exact ih
      | call c =>
        cases c with
        | period => simp only [notified, ih, h3 other ho]; rfl
        | _ => exact ih

/-- **C145, the first one.** Configuring a timer is an update event: as soon as it is started the callback comes,
before the counter has run over. -/
theorem C145_first_at_once : ∃ k, periods (serve k (run init [.configure, .enable])).log = 1 :=
  ⟨40, by decide +kernel⟩

/-- Configured and started; an overflow after the handler has cleared the flag; compare flags that nobody asked for. -/
example :
    (serve 100 (run init ([.configure, .enable, .flags 2#32, .take] ++ List.replicate 8 .go ++ [.overflow]))).log =
      [.call .period, .call .period, .update, .update] := by decide +kernel

end Verif.TimIrq
