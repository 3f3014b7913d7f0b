import Verif.Proofs.Ready
import Verif.Spec.Ready

set_option autoImplicit false

/-! # The kernel's ready lists: every event keeps the invariant -/

namespace Verif.Ready

open Verif.KList

/-- The running task is ready and no ready task is above it. -/
def Highest (s : St) : Prop :=
  (∃ p, s.heap.container s.current = some (.ready p)) ∧
    ∀ t p, s.heap.container t = some (.ready p) → p ≤ s.prio s.current

/-- What holds between two events. -/
structure Inv0 (g : Prop) (s : St) (c : Lists) : Prop where
  core : Core s c
  idle : ∃ p, s.heap.container idle = some (.ready p)
  pend : ∀ t ∈ s.pending, ∃ l, s.heap.container t = some l ∧ Waits l
  nodup : s.pending.Nodup
  empty : s.susp = 0 → s.pending = []
  high : g → s.pend = false → s.yieldPending = false → Highest s

variable {g : Prop}

theorem Inv0.weaken {h : Prop} {s : St} {c : Lists} (I : Inv0 g s c) (k : h → g) : Inv0 h s c :=
  ⟨I.core, I.idle, I.pend, I.nodup, I.empty, fun x => I.high (k x)⟩

/-- An event after which the right task runs if it did before. The one kind that is not: a mutex is
given back by a task with a priority that it has inherited, and the first task that waits for it
is not above the giver's own priority. -/
def GoodEv (s : St) : Ev → Prop
  | .give (some t) => s.prio s.current ≠ s.base s.current → s.base s.current < s.prio t
  | _ => True

/-- Every task that is in a ready list before and after has kept its place in it. -/
def Turns (c c' : Lists) : Prop :=
  ∀ p t, t ∈ (c (.ready p)).all → t ∈ (c' (.ready p)).all → Quiet t (c (.ready p)) (c' (.ready p))

/-- The same, and no task ends. -/
def Kept (c c' : Lists) : Prop := Turns c c' ∧ c' .ended = c .ended

theorem Grow.kept {c c' : Lists} (h : Grow c c') : Kept c c' := ⟨fun p t _ _ => h.1 p t, h.2⟩

theorem Kept.refl (c : Lists) : Kept c c := (Grow.refl c).kept

/-- Only the running task, a flag or the pending list change. -/
theorem Core.same {s s' : St} {c : Lists} (I : Core s c) (h1 : s'.heap = s.heap) (h2 : s'.top = s.top)
    (h3 : s'.prio = s.prio) (h4 : s'.base = s.base) : Core s' c := by
  obtain ⟨a, b, d, e, f, g⟩ := I
  refine ⟨?_, ?_, ?_, ?_, ?_, ?_⟩
  · rw [h1]; exact a
  · rw [h1]; exact b
  · rw [h1, h2]; exact d
  · rw [h1, h3]; exact e
  · rw [h3]; exact f
  · rw [h3, h4]; exact g

/-- Tasks were woken: each from a list that is not a ready list. With `flag` false, only tasks
below the running one. -/
def Woke (s s' : St) (flag : Bool) : Prop :=
  ∀ t, s'.heap.container t = s.heap.container t ∨
    ((∃ l, s.heap.container t = some l ∧ Waits l) ∧
      s'.heap.container t = some (.ready (s.prio t)) ∧ (flag = false → s.prio t ≤ s.prio s.current))

theorem Woke.high {s s' : St} {flag : Bool} (w : Woke s s' flag) (hf : flag = false)
    (hp : s'.prio = s.prio) (hc : s'.current = s.current) (hh : Highest s) : Highest s' := by
  obtain ⟨⟨p, hp0⟩, hall⟩ := hh
  constructor
  · rw [hc]
    rcases w s.current with e | ⟨_, e, _⟩
    · exact ⟨p, by rw [e]; exact hp0⟩
    · exact ⟨_, e⟩
  · intro t q ht
    rw [hc, hp]
    rcases w t with e | ⟨_, e, h⟩
    · rw [e] at ht; exact hall t q ht
    · rw [e] at ht
      simp only [Option.some.injEq, LId.ready.injEq] at ht
      subst ht; exact h hf

theorem Woke.idle {s s' : St} {flag : Bool} (w : Woke s s' flag)
    (hi : ∃ p, s.heap.container Ready.idle = some (.ready p)) :
    ∃ p, s'.heap.container Ready.idle = some (.ready p) := by
  rcases w Ready.idle with e | ⟨_, e, _⟩
  · rw [e]; exact hi
  · exact ⟨_, e⟩

theorem other_delayed (b : Bool) : Waits (.delayed b) := .inr ⟨b, rfl⟩

theorem other_suspended : Waits .suspended := .inl rfl

theorem wake_woke {s : St} {h : Heap LId Nat} {b : BitVec 32} {t : Nat} {l : LId}
    (hc : s.heap.container t = some l) (ho : Waits l)
    (e : h.container = Function.update s.heap.container t (some (.ready (s.prio t)))) (flag : Bool)
    (hf : flag = false → s.prio t ≤ s.prio s.current) :
    Woke s { s with heap := h, top := b } flag := by
  intro x
  by_cases hx : x = t
  · subst hx
    right
    exact ⟨⟨l, hc, ho⟩, by simp [e], hf⟩
  · left; simp only [e, Function.update_of_ne hx]

theorem wakeAll_spec : ∀ (ts : List Nat) {s : St} {c : Lists} (_ : Core s c) (req : Bool),
    ∃ req' h b c', wakeAll s req ts = .ok (req', { s with heap := h, top := b }) ∧
      Core { s with heap := h, top := b } c' ∧ Grow c c' ∧
      (req = true → req' = true) ∧ Woke s { s with heap := h, top := b } req'
  | [], s, c, I, req => ⟨req, s.heap, s.top, c, rfl, I, .refl c, id, fun _ => .inl rfl⟩
  | t :: ts, s, c, I, req => by
    rw [wakeAll]
    have skip : ∃ req' h b c', wakeAll s req ts = .ok (req', { s with heap := h, top := b }) ∧
        Core { s with heap := h, top := b } c' ∧ Grow c c' ∧
        (req = true → req' = true) ∧ Woke s { s with heap := h, top := b } req' := wakeAll_spec ts I req
    rcases hc : s.heap.container t with _ | l
    · exact skip
    · cases l with
      | ready p => exact skip
      | suspended => exact skip
      | ended => exact skip
      | delayed d =>
        obtain ⟨h, b, c1, e1, e2, I1, g1⟩ := core_wake I hc (other_delayed d)
        simp only
        rw [e1]
        simp only
        obtain ⟨req', h', b', c', f1, f2, f3, f4, f5⟩ := wakeAll_spec ts I1
          (req || decide (s.prio s.current ≤ s.prio t))
        refine ⟨req', h', b', c', f1, f2, g1.trans f3, fun hr => f4 (by simp [hr]), ?_⟩
        have w1 := wake_woke (b := b) hc (other_delayed d) e2 req' (fun hr => by
          have : ¬ (s.prio s.current ≤ s.prio t) := by
            intro hle
            have := f4 (by simp [hle])
            rw [hr] at this; cases this
          omega)
        intro x
        rcases f5 x with e | ⟨⟨l, hl, ho⟩, e, hf⟩
        · rcases w1 x with e' | ⟨hl, e', hf⟩
          · left; rw [e]; exact e'
          · right; exact ⟨hl, by rw [e]; exact e', hf⟩
        · rcases w1 x with e' | ⟨_, e', _⟩
          · right; exact ⟨⟨l, by rw [← e']; exact hl, ho⟩, e, hf⟩
          · exfalso
            simp only at hl
            simp only [hl, Option.some.injEq] at e'
            exact ho.ready _ e'

theorem tickBody_spec {s : St} {c : Lists} (I : Core s c) (ts : List Nat) :
    ∃ req h b c', tickBody s ts = .ok (req, { s with heap := h, top := b }) ∧
      Core { s with heap := h, top := b } c' ∧ Grow c c' ∧
      (s.yieldPending = true → req = true) ∧ Woke s { s with heap := h, top := b } req := by
  obtain ⟨req, h, b, c', e1, e2, e3, _, e5⟩ := wakeAll_spec ts I false
  refine ⟨_, h, b, c', by rw [tickBody, e1], e2, e3, fun hy => by simp [hy], ?_⟩
  intro t
  rcases e5 t with e | ⟨hl, e, hf⟩
  · exact .inl e
  · refine .inr ⟨hl, e, fun hr => hf ?_⟩
    simp only [Bool.or_eq_false_iff] at hr
    exact hr.1.1

/-- Relation of the state after several wake-ups to the one before, with the owed yield. -/
structure Later (s s' : St) : Prop where
  woke : Woke s s' s'.yieldPending
  prio : s'.prio = s.prio
  base : s'.base = s.base
  current : s'.current = s.current
  susp : s'.susp = s.susp
  pend : s'.pend = s.pend
  pending : s'.pending = s.pending
  owed : s.yieldPending = true → s'.yieldPending = true

theorem Later.refl (s : St) : Later s s :=
  ⟨fun _ => .inl rfl, rfl, rfl, rfl, rfl, rfl, rfl, id⟩

theorem Later.trans {a b c : St} (h1 : Later a b) (h2 : Later b c) : Later a c := by
  refine ⟨?_, h2.prio.trans h1.prio, h2.base.trans h1.base, h2.current.trans h1.current,
    h2.susp.trans h1.susp, h2.pend.trans h1.pend, h2.pending.trans h1.pending,
    fun h => h2.owed (h1.owed h)⟩
  intro t
  have hback : c.yieldPending = false → b.yieldPending = false := by
    intro hc
    by_contra hb
    have := h2.owed (by simpa using hb)
    rw [hc] at this; cases this
  rcases h2.woke t with e | ⟨⟨l, hl, ho⟩, e, hf⟩
  · rcases h1.woke t with e' | ⟨hl, e', hf⟩
    · left; rw [e, e']
    · right; exact ⟨hl, by rw [e, e'], fun h => hf (hback h)⟩
  · rcases h1.woke t with e' | ⟨_, e', _⟩
    · right
      refine ⟨⟨l, by rw [← e']; exact hl, ho⟩, by rw [e, h1.prio], fun h => ?_⟩
      have := hf h
      rw [h1.prio, h1.current] at this; exact this
    · exfalso
      rw [hl] at e'
      exact ho.ready _ (Option.some.inj e')

theorem drain_spec : ∀ (ts : List Nat) {s : St} {c : Lists} (_ : Core s c) (_ : ts.Nodup)
    (_ : ∀ t ∈ ts, ∃ l, s.heap.container t = some l ∧ Waits l),
    ∃ s' c', drain s ts = .ok s' ∧ Core s' c' ∧ Grow c c' ∧ Later s s'
  | [], s, c, I, _, _ => ⟨s, c, rfl, I, .refl c, .refl s⟩
  | t :: ts, s, c, I, hn, hb => by
    obtain ⟨l, hl, ho⟩ := hb t (by simp)
    obtain ⟨h, b, c1, e1, e2, I1, g1⟩ := core_wake I hl ho
    rw [drain, e1]
    simp only
    have hn' := List.nodup_cons.mp hn
    obtain ⟨s', c', f1, f2, f3, f4⟩ := drain_spec ts
      (s := { s with heap := h, top := b,
                     yieldPending := s.yieldPending || decide (s.prio s.current ≤ s.prio t) })
      (I1.same rfl rfl rfl rfl) hn'.2 (by
        intro x hx
        have hxt : x ≠ t := by rintro rfl; exact hn'.1 hx
        obtain ⟨m, hm, hmo⟩ := hb x (by simp [hx])
        exact ⟨m, by simp only [e2, Function.update_of_ne hxt]; exact hm, hmo⟩)
    refine ⟨s', c', f1, f2, g1.trans f3, ?_⟩
    refine Later.trans ?_ f4
    refine ⟨?_, rfl, rfl, rfl, rfl, rfl, rfl, fun hy => by simp [hy]⟩
    have w1 := wake_woke (b := b) hl ho e2
      (s.yieldPending || decide (s.prio s.current ≤ s.prio t)) (fun hr => by
        simp only [Bool.or_eq_false_iff, decide_eq_false_iff_not] at hr; omega)
    exact w1

theorem makeUp_spec : ∀ (tss : List (List Nat)) {s : St} {c : Lists} (_ : Core s c),
    ∃ s' c', makeUp s tss = .ok s' ∧ Core s' c' ∧ Grow c c' ∧ Later s s'
  | [], s, c, I => ⟨s, c, rfl, I, .refl c, .refl s⟩
  | ts :: tss, s, c, I => by
    obtain ⟨req, h, b, c1, e1, I1, g1, h1, w1⟩ := tickBody_spec I ts
    rw [makeUp, e1]
    simp only
    obtain ⟨s', c', f1, f2, f3, f4⟩ := makeUp_spec tss
      (s := { s with heap := h, top := b, yieldPending := s.yieldPending || req })
      (I1.same rfl rfl rfl rfl)
    refine ⟨s', c', f1, f2, g1.trans f3, Later.trans ?_ f4⟩
    refine ⟨?_, rfl, rfl, rfl, rfl, rfl, rfl, fun hy => by simp [hy]⟩
    intro t
    rcases w1 t with e | ⟨hl, e, hf⟩
    · exact .inl e
    · refine .inr ⟨hl, e, fun hr => hf ?_⟩
      simp only [Bool.or_eq_false_iff] at hr
      exact hr.2

/-- A pending task stays blocked when others are woken. -/
theorem pend_woke {s s' : St} {c : Lists} {t : Nat} (I : Inv0 g s c) (ht : t ∉ s.pending)
    (e : s'.heap.container = Function.update s.heap.container t (some (.ready (s.prio t))))
    (hp : s'.pending = s.pending) :
    ∀ x ∈ s'.pending, ∃ l, s'.heap.container x = some l ∧ Waits l := by
  intro x hx
  rw [hp] at hx
  have hxt : x ≠ t := by rintro rfl; exact ht hx
  rw [e, Function.update_of_ne hxt]
  exact I.pend x hx

/-- `isBlocked` read as a fact about memory. -/
theorem blocked_spec {s : St} {t : Nat} (h : isBlocked s t = true) :
    t ∉ s.pending ∧ ∃ l, s.heap.container t = some l ∧ Waits l := by
  unfold isBlocked at h
  rcases hc : s.heap.container t with _ | l
  · rw [hc] at h; cases h
  · cases l with
    | ready p => rw [hc] at h; cases h
    | ended => rw [hc] at h; cases h
    | delayed b => rw [hc] at h; exact ⟨by simpa using h, _, rfl, other_delayed b⟩
    | suspended => rw [hc] at h; exact ⟨by simpa using h, _, rfl, other_suspended⟩

theorem event_spec {s : St} {c : Lists} (I : Inv0 g s c) {t : Nat} (hb : isBlocked s t = true) :
    ∃ woken s' c', event s t = .ok (woken, s') ∧ Inv0 g s' c' ∧ Grow c c' ∧
      s'.prio = s.prio ∧ s'.base = s.base ∧ s'.current = s.current ∧ s'.pend = s.pend ∧
      woken = decide (s.prio s.current < s.prio t) := by
  obtain ⟨hnp, l, hl, ho⟩ := blocked_spec hb
  -- the state before the comparison of priorities
  obtain ⟨s1, c1, e1, hc1, g1, p1, b1, u1, q1, y1, hid, hpe, hnd, hem, hw⟩ : ∃ s1 c1,
      (if s.susp = 0 then wake s t else .ok { s with pending := s.pending ++ [t] }) = .ok s1 ∧
      Core s1 c1 ∧ Grow c c1 ∧ s1.prio = s.prio ∧ s1.base = s.base ∧ s1.current = s.current ∧
      s1.pend = s.pend ∧ s1.yieldPending = s.yieldPending ∧
      (∃ p, s1.heap.container idle = some (.ready p)) ∧
      (∀ x ∈ s1.pending, ∃ l, s1.heap.container x = some l ∧ Waits l) ∧ s1.pending.Nodup ∧
      (s1.susp = 0 → s1.pending = []) ∧
      Woke s s1 (decide (s.prio s.current < s.prio t)) := by
    by_cases h0 : s.susp = 0
    · rw [if_pos h0]
      obtain ⟨h, b, c1, e1, e2, I1, g1⟩ := core_wake I.core hl ho
      have w1 := wake_woke (b := b) hl ho e2 (decide (s.prio s.current < s.prio t))
        (fun hr => by simp only [decide_eq_false_iff_not] at hr; omega)
      exact ⟨_, c1, e1, I1, g1, rfl, rfl, rfl, rfl, rfl, w1.idle I.idle,
        pend_woke (s' := { s with heap := h, top := b }) I hnp e2 rfl, I.nodup, I.empty, w1⟩
    · rw [if_neg h0]
      refine ⟨_, c, rfl, I.core.same rfl rfl rfl rfl, .refl c, rfl, rfl, rfl, rfl, rfl, I.idle, ?_, ?_,
        fun h => absurd h h0, fun _ => .inl rfl⟩
      · intro x hx
        rcases List.mem_append.mp hx with hx | hx
        · exact I.pend x hx
        · rw [List.mem_singleton.mp hx]; exact ⟨l, hl, ho⟩
      · rw [List.nodup_append]
        exact ⟨I.nodup, by simp, fun a ha b hb' e => hnp (by rw [← List.mem_singleton.mp hb', ← e]; exact ha)⟩
  unfold event
  rw [e1]
  simp only
  by_cases hlt : s1.prio s1.current < s1.prio t
  · rw [if_pos hlt]
    refine ⟨_, _, c1, rfl, ⟨hc1.same rfl rfl rfl rfl, hid, hpe, hnd, hem, fun _ _ hy => ?_⟩, g1, p1, b1, u1, q1, ?_⟩
    · cases hy
    · rw [p1, u1] at hlt; simp [hlt]
  · rw [if_neg hlt]
    have hlt' := hlt
    rw [p1, u1] at hlt'
    refine ⟨_, _, c1, rfl, ⟨hc1, hid, hpe, hnd, hem, fun hg hp hy => ?_⟩, g1, p1, b1, u1, q1, by simp [hlt']⟩
    exact hw.high (by simp [hlt']) p1 u1 (I.high hg (by rw [← q1]; exact hp) (by rw [← y1]; exact hy))

/-- A ready task is moved to the list of another priority. -/
theorem move_spec {s : St} {c : Lists} (I : Core s c) {t p q r : Nat}
    (hc : s.heap.container t = some (.ready q)) (hr : r = q ∨ ∃ x, x ≠ t ∧ s.heap.container x = some (.ready q))
    (hp : p < 7) (hne : p ≠ q) (hb : s.base t ≤ p) :
    ∃ h b h' b', takeReady s t r = .ok { s with heap := h, top := b } ∧
      addReady { s with heap := h, top := b, prio := Function.update s.prio t p } t =
        { s with heap := h', top := b', prio := Function.update s.prio t p } ∧
      h'.container = Function.update s.heap.container t (some (.ready p)) ∧
      ∃ c', Core { s with heap := h', top := b', prio := Function.update s.prio t p } c' ∧ Kept c c' := by
  obtain ⟨h, b, e1, e2, _, I1⟩ := core_take I hc hr
  have I2 : Core { s with heap := h, top := b, prio := Function.update s.prio t p }
      (Function.update c (.ready q) ((c (.ready q)).erase t)) := by
    refine ⟨I1.world, I1.vals, I1.bits, ?_, ?_, ?_⟩
    · intro x y hx
      have hxt : x ≠ t := by rintro rfl; simp [e2] at hx
      simp only
      rw [Function.update_of_ne hxt]
      exact I1.prios x y hx
    · intro x
      by_cases hxt : x = t
      · subst hxt; simpa using hp
      · simp only; rw [Function.update_of_ne hxt]; exact I.lt x
    · intro x
      by_cases hxt : x = t
      · subst hxt; simpa using hb
      · simp only; rw [Function.update_of_ne hxt]; exact I.bl x
  have hn : ({ s with heap := h, top := b, prio := Function.update s.prio t p } : St).heap.container t = none := by
    simp [e2]
  have I3 := core_add I2 hn
  refine ⟨h, b, _, _, e1, rfl, ?_, _, I3, ?_⟩
  · show Function.update h.container t (some (LId.ready (Function.update s.prio t p t))) = _
    rw [e2]; simp
  · refine ⟨?_, by rw [Function.update_of_ne (by simp), Function.update_of_ne (by simp)]⟩
    intro y x hx hx'
    simp only [Function.update_self] at hx' ⊢
    have hqp : (LId.ready q) ≠ .ready p := by simpa using hne.symm
    by_cases hyp : y = p
    · subst hyp
      rw [Function.update_self, Function.update_of_ne (Ne.symm hqp)]
      exact .ins t .refl
    · have hyp' : (LId.ready y) ≠ .ready p := by simpa using hyp
      rw [Function.update_of_ne hyp'] at hx' ⊢
      by_cases hyq : y = q
      · subst hyq
        rw [Function.update_self] at hx' ⊢
        have hxt : t ≠ x := by
          rintro rfl
          have := ((I1.world (.ready y)).mem t).mpr (by rw [Function.update_self]; exact hx')
          simp [e2] at this
        exact .del t hxt .refl
      · have hyq' : (LId.ready y) ≠ .ready q := by simpa using hyq
        rw [Function.update_of_ne hyq']
        exact .refl

/-- A ready task stays ready, others stay where they are. -/
theorem moved_fields {s s' : St} {c : Lists} {t p : Nat} (I : Inv0 g s c)
    (ht : ∃ q, s.heap.container t = some (.ready q))
    (e : s'.heap.container = Function.update s.heap.container t (some (.ready p)))
    (hp : s'.pending = s.pending) :
    (∃ q, s'.heap.container idle = some (.ready q)) ∧
      ∀ x ∈ s'.pending, ∃ l, s'.heap.container x = some l ∧ Waits l := by
  constructor
  · rw [e]
    by_cases hi : idle = t
    · exact ⟨p, by rw [hi]; simp⟩
    · rw [Function.update_of_ne hi]; exact I.idle
  · intro x hx
    rw [hp] at hx
    obtain ⟨l, hl, ho⟩ := I.pend x hx
    have hxt : x ≠ t := by
      rintro rfl
      obtain ⟨q, hq⟩ := ht
      rw [hq] at hl
      exact ho.ready q (Option.some.inj hl).symm
    rw [e, Function.update_of_ne hxt]
    exact ⟨l, hl, ho⟩

theorem isReady_spec {s : St} {t : Nat} (h : isReady s t = true) :
    s.heap.container t = some (.ready (s.prio t)) := by simpa [isReady] using h

/-- The running task leaves its ready list for a list that is not one, and a switch is asked for. -/
theorem leave_spec {s : St} {c : Lists} (I : Inv0 g s c) (hc : s.heap.container s.current = some (.ready (s.prio s.current)))
    (hi : s.current ≠ idle) {h : Heap LId Nat} {b : BitVec 32}
    (e2 : h.container = Function.update s.heap.container s.current none)
    (I1 : Core { s with heap := h, top := b } (Function.update c (.ready (s.prio s.current))
      ((c (.ready (s.prio s.current))).erase s.current)))
    (h' : Heap LId Nat) (l : LId) (z : Z Nat) (ho : ∀ p, l ≠ .ready p)
    (hcon : h'.container = Function.update h.container s.current (some l))
    (hv : ∀ x, h'.value (.item x) ≤ maxDelay)
    (hw : World h' (Function.update (Function.update c (.ready (s.prio s.current))
        ((c (.ready (s.prio s.current))).erase s.current)) l z)) :
    Inv0 g { s with heap := h', top := b, pend := true } (Function.update (Function.update c (.ready (s.prio s.current))
        ((c (.ready (s.prio s.current))).erase s.current)) l z) ∧
    Turns c (Function.update (Function.update c (.ready (s.prio s.current))
        ((c (.ready (s.prio s.current))).erase s.current)) l z) := by
  have hcon' : h'.container = Function.update s.heap.container s.current (some l) := by
    rw [hcon, e2, Function.update_idem]
  refine ⟨⟨⟨hw, hv, ?_, ?_, I.core.lt, I.core.bl⟩, ?_, ?_, I.nodup, I.empty, fun _ hp => by cases hp⟩, ?_⟩
  · intro p
    rw [I1.bits p]
    simp only [hcon, e2]
    constructor
    · rintro ⟨x, hx⟩
      by_cases hxc : x = s.current
      · subst hxc; simp at hx
      · exact ⟨x, by rw [Function.update_of_ne hxc]; exact hx⟩
    · rintro ⟨x, hx⟩
      by_cases hxc : x = s.current
      · subst hxc; simp at hx; exact absurd hx (ho p)
      · rw [Function.update_of_ne hxc] at hx; exact ⟨x, hx⟩
  · intro x p hx
    simp only [hcon'] at hx
    by_cases hxc : x = s.current
    · subst hxc; simp at hx; exact absurd hx (ho p)
    · rw [Function.update_of_ne hxc] at hx; exact I.core.prios x p hx
  · simp only [hcon']
    rw [Function.update_of_ne (Ne.symm hi)]; exact I.idle
  · intro x hx
    obtain ⟨m, hm, hmo⟩ := I.pend x hx
    have hxc : x ≠ s.current := by
      rintro rfl
      rw [hc] at hm
      exact hmo.ready _ (Option.some.inj hm).symm
    exact ⟨m, by simp only [hcon', Function.update_of_ne hxc]; exact hm, hmo⟩
  · intro p x hx hx'
    rw [Function.update_of_ne (fun e => ho p e.symm)] at hx' ⊢
    by_cases hp : p = s.prio s.current
    · subst hp
      rw [Function.update_self] at hx' ⊢
      have hxc : s.current ≠ x := by
        rintro rfl
        have := ((I1.world (.ready (s.prio s.current))).mem s.current).mpr (by rw [Function.update_self]; exact hx')
        simp [e2] at this
      exact .del _ hxc .refl
    · rw [Function.update_of_ne (by simpa using hp)]; exact .refl

theorem block_spec {s : St} {c : Lists} (I : Inv0 g s c) (w : Wait) (hr : isReady s s.current = true)
    (hi : s.current ≠ idle) :
    ∃ s' c', block s w = .ok s' ∧ Inv0 g s' c' ∧ Kept c c' := by
  have hc := isReady_spec hr
  obtain ⟨h, b, e1, e2, e2v, I1⟩ := core_take I.core hc (.inl rfl)
  have hn : h.container s.current = none := by simp [e2]
  unfold block
  rw [e1]
  simp only
  have hend : ∀ l z, Waits l → Function.update (Function.update c (.ready (s.prio s.current))
        ((c (.ready (s.prio s.current))).erase s.current)) l z .ended = c .ended := by
    intro l z hl
    rw [Function.update_of_ne (Ne.symm hl.ended), Function.update_of_ne (by simp)]
  cases w with
  | forever =>
    have hw := insertEnd_world I1.world .suspended hn
    obtain ⟨i1, k1⟩ := leave_spec I hc hi e2 I1 (insertEnd h .suspended s.current) .suspended _ other_suspended.ready rfl
      I1.vals hw
    exact ⟨_, _, rfl, i1, k1, hend _ _ other_suspended⟩
  | «until» d v =>
    simp only
    have hw0 := setValue_world I1.world s.current (v % 4294967296)
    have hv0 : ∀ x, (setValue h s.current (v % 4294967296)).value (.item x) ≤ maxDelay := by
      intro x
      unfold setValue maxDelay
      by_cases hx : x = s.current
      · subst hx; simp; omega
      · simp only
        rw [Function.update_of_ne (by simpa using hx)]
        exact I1.vals x
    obtain ⟨h', f1, f2, f3⟩ := insert_world hw0 (.delayed d) hn hv0
      (fuel := (setValue h s.current (v % 4294967296)).count (.delayed d) + 1)
      (by rw [(hw0 (.delayed d)).count]; omega)
    rw [f1]
    simp only
    have f4 : h'.container = Function.update h.container s.current (some (.delayed d)) := by
      unfold KList.insert at f1
      simp only at f1
      split at f1
      · cases f1
      · rw [← Option.some.inj f1]; rfl
    obtain ⟨i1, k1⟩ := leave_spec I hc hi e2 I1 h' (.delayed d) _ (other_delayed d).ready f4 (by rw [f2]; exact hv0) f3
    exact ⟨_, _, rfl, i1, k1, hend _ _ (other_delayed d)⟩

/-- The running task ends itself. -/
theorem delete_spec {s : St} {c : Lists} (I : Inv0 g s c) (hr : isReady s s.current = true)
    (hi : s.current ≠ idle) (h0 : s.susp = 0) :
    ∃ s' c', delete s = .ok s' ∧ Inv0 g s' c' ∧ Turns c c' ∧ s'.cleanup = s.cleanup + 1 ∧
      (c' .ended).all.length = (c .ended).all.length + 1 := by
  have hc := isReady_spec hr
  obtain ⟨h, b, e1, e2, e2v, I1⟩ := core_take I.core hc (.inl rfl)
  have hn : h.container s.current = none := by simp [e2]
  obtain ⟨h2, r1, r2, r3, w2⟩ := remove_world I.core.world hc
  have hcnt := (w2 (.ready (s.prio s.current))).count
  rw [Function.update_self] at hcnt
  have hh : h = h2 ∧ b = if h2.count (.ready (s.prio s.current)) = 0 then
      s.top &&& ~~~(1#32 <<< s.prio s.current) else s.top := by
    rw [takeReady, r1] at e1
    simp only [Except.ok.injEq, St.mk.injEq] at e1
    exact ⟨e1.1.symm, by rw [hcnt]; exact e1.2.1.symm⟩
  obtain ⟨rfl, rfl⟩ := hh
  have hw := insertEnd_world I1.world .ended hn
  obtain ⟨i1, k1⟩ := leave_spec I hc hi e2 I1 (insertEnd h .ended s.current) .ended _ (fun _ e => by cases e) rfl
    I1.vals hw
  refine ⟨{ s with heap := insertEnd h .ended s.current
                   top := if h.count (.ready (s.prio s.current)) = 0 then
                     s.top &&& ~~~(1#32 <<< s.prio s.current) else s.top
                   pend := true
                   cleanup := s.cleanup + 1 }, _, ?_,
    ⟨i1.core.same rfl rfl rfl rfl, i1.idle, i1.pend, i1.nodup, i1.empty, i1.high⟩, k1, rfl, ?_⟩
  · unfold delete
    simp only [r1, h0, ne_eq, not_true_eq_false, ↓reduceIte, ← hcnt, and_self]
  · have h1 := (hw .ended).count
    have h2 := (I1.world .ended).count
    rw [Function.update_of_ne (by simp)] at h2
    rw [← h1, ← h2]
    simp [insertEnd]

/-- The idle task takes the first of the tasks that have ended out of the list. -/
theorem reap_spec {s : St} {c : Lists} (I : Inv0 g s c) (hn : s.cleanup = (c .ended).all.length) :
    ∃ s' c', reap s = .ok s' ∧ Inv0 g s' c' ∧ Turns c c' ∧ s'.cleanup = (c' .ended).all.length := by
  unfold reap
  by_cases h0 : s.cleanup = 0
  · rw [if_pos h0]; exact ⟨s, c, rfl, I, (Kept.refl c).1, hn⟩
  · rw [if_neg h0]
    rcases ha : (c .ended).all with _ | ⟨x, b⟩
    · rw [ha] at hn; exact absurd hn h0
    have hx : s.heap.container x = some .ended := ((I.core.world .ended).mem x).mpr (by rw [ha]; simp)
    obtain ⟨h, e1, e2, e3, w'⟩ := remove_world I.core.world hx
    rw [headEntry_world I.core.world ha]
    simp only
    rw [e1]
    simp only
    have hne : ∀ t p, s.heap.container t = some (.ready p) → t ≠ x := by
      rintro t p ht rfl; rw [hx] at ht; cases ht
    have hback : ∀ t l, h.container t = some l → s.heap.container t = some l := by
      intro t l ht
      rw [e3] at ht
      by_cases htx : t = x
      · subst htx; simp at ht
      · rw [Function.update_of_ne htx] at ht; exact ht
    have hforth : ∀ t l, s.heap.container t = some l → l ≠ .ended → h.container t = some l := by
      intro t l ht hl
      have htx : t ≠ x := by rintro rfl; rw [hx] at ht; exact hl (Option.some.inj ht).symm
      rw [e3, Function.update_of_ne htx]; exact ht
    refine ⟨_, _, rfl, ⟨⟨w', fun y => by rw [e2]; exact I.core.vals y, ?_, ?_, I.core.lt, I.core.bl⟩, ?_, ?_, I.nodup,
      I.empty, ?_⟩, ?_, ?_⟩
    · intro p
      rw [I.core.bits p]
      exact ⟨fun ⟨t, ht⟩ => ⟨t, hforth t _ ht (by simp)⟩, fun ⟨t, ht⟩ => ⟨t, hback t _ ht⟩⟩
    · intro t p ht; exact I.core.prios t p (hback t _ ht)
    · obtain ⟨p, hp⟩ := I.idle
      exact ⟨p, hforth _ _ hp (by simp)⟩
    · intro t ht
      obtain ⟨l, hl, ho⟩ := I.pend t ht
      exact ⟨l, hforth t l hl ho.ended, ho⟩
    · intro hg hp hy
      obtain ⟨⟨p, h1⟩, h2⟩ := I.high hg hp hy
      exact ⟨⟨p, hforth _ _ h1 (by simp)⟩, fun t q ht => h2 t q (hback t _ ht)⟩
    · intro p t _ _
      rw [Function.update_of_ne (by simp)]; exact .refl
    · have h1 := (w' .ended).count
      rw [Function.update_self] at h1 ⊢
      rw [← h1]
      have h2 : h.count .ended = s.heap.count .ended - 1 := by
        unfold remove at e1
        rw [hx] at e1
        simp only at e1
        obtain ⟨_, rfl⟩ := Prod.mk.inj (Except.ok.inj e1)
        simp only [Function.update_self]
        split_ifs <;> rfl
      rw [h2, (I.core.world .ended).count, hn]

theorem inherit_spec {s : St} {c : Lists} (I : Inv0 g s c) {t : Nat} (ht : t ≠ s.current) :
    ∃ s' c', inherit s t = .ok s' ∧ Inv0 g s' c' ∧ Kept c c' := by
  unfold inherit
  by_cases hlt : s.prio t < s.prio s.current
  · rw [if_pos hlt]
    by_cases hr : isReady s t = true
    · rw [if_pos hr]
      have hc := isReady_spec hr
      obtain ⟨h, b, h', b', e1, e2, e3, c', I1, k1⟩ := move_spec I.core (p := s.prio s.current) hc
        (.inl rfl) (I.core.lt _) (by omega) (Nat.le_trans (I.core.bl t) (Nat.le_of_lt hlt))
      refine ⟨_, c', by rw [moveReady, e1]; simp only; rw [e2], ⟨I1, ?_, ?_, I.nodup, I.empty, ?_⟩, k1⟩
      · exact (moved_fields (s' := { s with heap := h', top := b', prio := Function.update s.prio t (s.prio s.current) }) I ⟨_, hc⟩ e3 rfl).1
      · exact (moved_fields (s' := { s with heap := h', top := b', prio := Function.update s.prio t (s.prio s.current) }) I ⟨_, hc⟩ e3 rfl).2
      · intro hg hp hy
        obtain ⟨⟨p, hp0⟩, hall⟩ := I.high hg hp hy
        constructor
        · simp only [e3, Function.update_of_ne (Ne.symm ht)]; exact ⟨p, hp0⟩
        · intro x q hx
          simp only [e3] at hx
          simp only [Function.update_of_ne (Ne.symm ht)]
          by_cases hxt : x = t
          · subst hxt; simp at hx; omega
          · rw [Function.update_of_ne hxt] at hx; exact hall x q hx
    · rw [if_neg hr]
      have hnr : ∀ q, s.heap.container t ≠ some (.ready q) := by
        intro q hq
        have := I.core.prios t q hq
        subst this
        exact hr (by simpa [isReady] using hq)
      refine ⟨_, c, rfl, ⟨⟨I.core.world, I.core.vals, I.core.bits, ?_, ?_, ?_⟩, I.idle, I.pend, I.nodup, I.empty, ?_⟩, .refl c⟩
      · intro x q hx
        have hxt : x ≠ t := by rintro rfl; exact hnr q hx
        simp only
        rw [Function.update_of_ne hxt]; exact I.core.prios x q hx
      · intro x
        by_cases hxt : x = t
        · subst hxt; simp [I.core.lt]
        · simp only; rw [Function.update_of_ne hxt]; exact I.core.lt x
      · intro x
        by_cases hxt : x = t
        · subst hxt; simp only [Function.update_self]
          exact Nat.le_trans (I.core.bl x) (Nat.le_of_lt hlt)
        · simp only; rw [Function.update_of_ne hxt]; exact I.core.bl x
      · intro hg hp hy
        obtain ⟨h1, h2⟩ := I.high hg hp hy
        refine ⟨h1, fun x q hx => ?_⟩
        simp only [Function.update_of_ne (Ne.symm ht)]
        exact h2 x q hx
  · rw [if_neg hlt]
    exact ⟨s, c, rfl, I, .refl c⟩

theorem other_in_list {h : Heap LId Nat} {c : Lists} (w : World h c) {l : LId} (hc : 1 < h.count l)
    (t : Nat) : ∃ x, x ≠ t ∧ h.container x = some l := by
  rw [(w l).count] at hc
  have hnd := nodup_all w l
  rcases ha : (c l).all with _ | ⟨a, _ | ⟨b, r⟩⟩
  · rw [ha] at hc; simp at hc
  · rw [ha] at hc; simp at hc
  · rw [ha] at hnd
    have hab : a ≠ b := by
      intro e; subst e; simp at hnd
    by_cases hat : a = t
    · exact ⟨b, by rintro rfl; exact hab hat, ((w l).mem b).mpr (by rw [ha]; simp)⟩
    · exact ⟨a, hat, ((w l).mem a).mpr (by rw [ha]; simp)⟩

theorem timeout_spec {s : St} {c : Lists} (I : Inv0 g s c) {t p : Nat} (ht : t ≠ s.current)
    (hp : p ≤ s.prio t)
    (hcur : isReady s t = true → s.prio t = max (s.base t) p ∨ 1 < s.heap.count (.ready (s.prio t))) :
    ∃ s' c', timeout s t p = .ok s' ∧ Inv0 g s' c' ∧ Kept c c' := by
  unfold timeout
  simp only
  generalize hqd : (if s.base t < p then p else s.base t) = q
  have hbl := I.core.bl t
  have hq1 : q ≤ s.prio t := by subst hqd; split_ifs <;> omega
  have hq2 : s.base t ≤ q := by subst hqd; split_ifs <;> omega
  have hqm : q = max (s.base t) p := by subst hqd; split_ifs <;> omega
  by_cases he : s.prio t = q
  · rw [if_pos he]; exact ⟨s, c, rfl, I, .refl c⟩
  · rw [if_neg he]
    by_cases hc : s.heap.container t = some (.ready (s.prio t))
    · rw [if_pos hc]
      have hcnt : 1 < s.heap.count (.ready (s.prio t)) := by
        rcases hcur (by simpa [isReady] using hc) with h | h
        · exact absurd (h.trans hqm.symm) he
        · exact h
      obtain ⟨x, hxt, hx⟩ := other_in_list I.core.world hcnt t
      obtain ⟨h, b, h', b', e1, e2, e3, c', I1, k1⟩ := move_spec I.core (p := q) (r := q) hc
        (.inr ⟨x, hxt, hx⟩) (by have := I.core.lt t; omega) (by omega) hq2
      have e1' : takeReady { s with prio := Function.update s.prio t q } t q =
          .ok { s with heap := h, top := b, prio := Function.update s.prio t q } := by
        unfold takeReady at e1 ⊢
        rcases hrm : remove s.heap t with e | ⟨k, hh⟩
        · rw [hrm] at e1; cases e1
        · rw [hrm] at e1
          simp only [Except.ok.injEq, St.mk.injEq] at e1
          simp only [Except.ok.injEq, St.mk.injEq]
          simp only [e1.1, e1.2.1, and_self]
      refine ⟨_, c', by rw [e1']; simp only; rw [e2], ⟨I1, ?_, ?_, I.nodup, I.empty, ?_⟩, k1⟩
      · exact (moved_fields (s' := { s with heap := h', top := b', prio := Function.update s.prio t q }) I ⟨_, hc⟩ e3 rfl).1
      · exact (moved_fields (s' := { s with heap := h', top := b', prio := Function.update s.prio t q }) I ⟨_, hc⟩ e3 rfl).2
      · intro hg hpe hy
        obtain ⟨⟨p', hp0⟩, hall⟩ := I.high hg hpe hy
        constructor
        · simp only [e3, Function.update_of_ne (Ne.symm ht)]; exact ⟨p', hp0⟩
        · intro x r hx
          simp only [e3] at hx
          simp only [Function.update_of_ne (Ne.symm ht)]
          by_cases hxt : x = t
          · subst hxt
            have := hall x _ hc
            simp at hx; omega
          · rw [Function.update_of_ne hxt] at hx; exact hall x r hx
    · rw [if_neg hc]
      have hnr : ∀ r, s.heap.container t ≠ some (.ready r) := by
        intro r hr
        have := I.core.prios t r hr
        subst this
        exact hc hr
      refine ⟨_, c, rfl, ⟨⟨I.core.world, I.core.vals, I.core.bits, ?_, ?_, ?_⟩, I.idle, I.pend, I.nodup, I.empty, ?_⟩, .refl c⟩
      · intro x r hx
        have hxt : x ≠ t := by rintro rfl; exact hnr r hx
        simp only
        rw [Function.update_of_ne hxt]; exact I.core.prios x r hx
      · intro x
        by_cases hxt : x = t
        · subst hxt; simp only [Function.update_self]; have := I.core.lt x; omega
        · simp only; rw [Function.update_of_ne hxt]; exact I.core.lt x
      · intro x
        by_cases hxt : x = t
        · subst hxt; simp only [Function.update_self]; exact hq2
        · simp only; rw [Function.update_of_ne hxt]; exact I.core.bl x
      · intro hg hpe hy
        obtain ⟨h1, h2⟩ := I.high hg hpe hy
        refine ⟨h1, fun x r hx => ?_⟩
        simp only [Function.update_of_ne (Ne.symm ht)]
        exact h2 x r hx

theorem give_spec {j : Prop} {s : St} {c : Lists} (I : Inv0 g s c) {w : Option Nat}
    (hh : j → g ∧ GoodEv s (.give w)) (hr : isReady s s.current = true) (hw : ∀ t ∈ w, isBlocked s t = true) :
    ∃ s' c', give s w = .ok s' ∧ Inv0 j s' c' ∧ Kept c c' := by
  have hc := isReady_spec hr
  have hbl := I.core.bl s.current
  unfold give disinherit
  by_cases hne : s.prio s.current ≠ s.base s.current
  · rw [if_pos hne]
    obtain ⟨h, b, h', b', e1, e2, e3, c', I1, k1⟩ := move_spec I.core (p := s.base s.current) hc
      (.inl rfl) (by have := I.core.lt s.current; omega) (Ne.symm hne) (Nat.le_refl _)
    rw [moveReady, e1]
    simp only
    rw [e2]
    -- with a switch asked for, nothing is claimed about the running task
    generalize hs1 : ({ s with heap := h', top := b', prio := Function.update s.prio s.current (s.base s.current) } : St) = s1
    have f1 : s1.heap.container = Function.update s.heap.container s.current (some (.ready (s.base s.current))) := by
      subst hs1; exact e3
    have f2 : s1.pending = s.pending := by subst hs1; rfl
    have f3 : s1.current = s.current := by subst hs1; rfl
    have f4 : s1.prio = Function.update s.prio s.current (s.base s.current) := by subst hs1; rfl
    have mf := moved_fields (s' := s1) I ⟨_, hc⟩ f1 f2
    have I2 : Inv0 g { s1 with pend := true } c' := by
      refine ⟨?_, mf.1, mf.2, ?_, ?_, fun _ hp => by cases hp⟩
      · subst hs1; exact I1.same rfl rfl rfl rfl
      · subst hs1; exact I.nodup
      · subst hs1; exact I.empty
    cases w with
    | none =>
      simp only
      exact ⟨_, c', rfl, by simpa using I2.weaken (fun x => (hh x).1), k1⟩
    | some t =>
      have hb := hw t rfl
      have htc : t ≠ s.current := by
        rintro rfl
        obtain ⟨_, l, hl, ho⟩ := blocked_spec hb
        rw [hc] at hl; exact ho.ready _ (Option.some.inj hl).symm
      have hb1 : isBlocked { s1 with pend := true } t = true := by
        unfold isBlocked at hb ⊢
        simp only [f1, f2, Function.update_of_ne htc]
        exact hb
      obtain ⟨wk, s2, c2, g1, g2, g3, g4, g5, g6, g7, g8⟩ := event_spec I2 hb1
      have hwk : j → wk = true := by
        intro hx
        rw [g8]
        simp only [f3, f4, Function.update_self, Function.update_of_ne htc, decide_eq_true_eq]
        exact (hh hx).2 hne
      -- the event does not look at the pending switch
      have hev : event s1 t = .ok (wk, { s2 with pend := s1.pend }) := by
        unfold event at g1 ⊢
        have hwake : ∀ (q : Bool), wake { s1 with pend := q } t =
            (match wake s1 t with | .error e => .error e | .ok s => .ok { s with pend := q }) := by
          intro q
          unfold wake
          simp only
          rcases remove s1.heap t with e | ⟨k, hh⟩ <;> rfl
        by_cases h0 : s1.susp = 0
        · have h0' : ({ s1 with pend := true } : St).susp = 0 := h0
          rw [if_pos h0', hwake true] at g1
          rw [if_pos h0]
          rcases hwk1 : wake s1 t with e | s3
          · rw [hwk1] at g1; cases g1
          · rw [hwk1] at g1
            simp only at g1 ⊢
            have hpd : s3.pend = s1.pend := by
              have := hwake s1.pend
              rw [hwk1] at this
              have := congrArg St.pend (Except.ok.inj this)
              exact this
            split_ifs at g1 ⊢ with hlt
            · simp only [Except.ok.injEq, Prod.mk.injEq] at g1 ⊢
              obtain ⟨rfl, rfl⟩ := g1
              exact ⟨rfl, by rw [← hpd]⟩
            · simp only [Except.ok.injEq, Prod.mk.injEq] at g1 ⊢
              obtain ⟨rfl, rfl⟩ := g1
              exact ⟨rfl, by rw [← hpd]⟩
        · have h0' : ¬ ({ s1 with pend := true } : St).susp = 0 := h0
          rw [if_neg h0'] at g1
          rw [if_neg h0]
          simp only at g1 ⊢
          split_ifs at g1 ⊢ with hlt
          · simp only [Except.ok.injEq, Prod.mk.injEq] at g1 ⊢
            obtain ⟨rfl, rfl⟩ := g1
            exact ⟨rfl, rfl⟩
          · simp only [Except.ok.injEq, Prod.mk.injEq] at g1 ⊢
            obtain ⟨rfl, rfl⟩ := g1
            exact ⟨rfl, rfl⟩
      simp only
      rw [hev]
      simp only
      refine ⟨_, c2, rfl, ?_, ?_⟩
      · refine ⟨g2.core.same rfl rfl rfl rfl, g2.idle, g2.pend, g2.nodup, g2.empty, ?_⟩
        intro hx hp
        simp only [hwk hx, Bool.or_true, Bool.true_eq_false] at hp
      · refine ⟨?_, g3.2.trans k1.2⟩
        intro p x hx hx'
        have hx1 : x ∈ (c' (.ready p)).all := by
          by_contra hno
          -- a task that is not in the list cannot be the same task after it was woken: it would be `t`
          have hxc := ((I.core.world (.ready p)).mem x).mpr hx
          have hx1c : s1.heap.container x ≠ some (.ready p) := by
            intro hh
            apply hno
            have hw1 : World s1.heap c' := by subst hs1; exact I1.world
            exact ((hw1 (.ready p)).mem x).mp hh
          have hxcur : x = s.current := by
            by_contra hxn
            rw [f1, Function.update_of_ne hxn] at hx1c
            exact hx1c hxc
          subst hxcur
          have h2 := ((g2.core.world (.ready p)).mem s.current).mpr hx'
          have hp2 := g2.core.prios _ _ h2
          rw [g4] at hp2
          simp only [f4, Function.update_self] at hp2
          have hp0 := I.core.prios _ _ hxc
          exact hne (by rw [hp0, hp2])
        exact (k1.1 p x hx hx1).trans (g3.1 p x)
  · rw [if_neg hne]
    simp only
    cases w with
    | none =>
      simp only [Bool.or_false]
      exact ⟨s, c, rfl, I.weaken (fun x => (hh x).1), .refl c⟩
    | some t =>
      have hb := hw t rfl
      obtain ⟨wk, s2, c2, g1, g2, g3, g4, g5, g6, g7, g8⟩ := event_spec I hb
      simp only [g1]
      refine ⟨_, c2, rfl, ⟨g2.core.same rfl rfl rfl rfl, g2.idle, g2.pend, g2.nodup, g2.empty, ?_⟩, g3.kept⟩
      intro hg hp hy
      simp only [Bool.or_eq_false_iff] at hp
      exact g2.high (hh hg).1 hp.1 hy

theorem create_spec {s : St} {c : Lists} (I : Inv0 g s c) {t p : Nat} (hn : s.heap.container t = none) :
    ∃ c', Inv0 g (create s t p) c' ∧ Kept c c' := by
  unfold create
  simp only
  generalize hqd : (if maxPriorities ≤ p then maxPriorities - 1 else p) = q
  have hq : q < 7 := by subst hqd; unfold maxPriorities; split_ifs <;> omega
  have I1 : Core { s with prio := Function.update s.prio t q, base := Function.update s.base t q } c := by
    refine ⟨I.core.world, I.core.vals, I.core.bits, ?_, ?_, ?_⟩
    · intro x r hx
      have hxt : x ≠ t := by rintro rfl; rw [hn] at hx; cases hx
      simp only
      rw [Function.update_of_ne hxt]; exact I.core.prios x r hx
    · intro x
      by_cases hxt : x = t
      · subst hxt; simpa using hq
      · simp only; rw [Function.update_of_ne hxt]; exact I.core.lt x
    · intro x
      by_cases hxt : x = t
      · subst hxt; simp
      · simp only; rw [Function.update_of_ne hxt, Function.update_of_ne hxt]; exact I.core.bl x
  have I2 := core_add I1 (t := t) hn
  refine ⟨_, ⟨I2.same rfl rfl rfl rfl, ?_, ?_, I.nodup, I.empty, ?_⟩, ?_⟩
  · simp only [addReady_container]
    obtain ⟨r, hr⟩ := I.idle
    have : idle ≠ t := by rintro rfl; rw [hn] at hr; cases hr
    rw [Function.update_of_ne this]; exact ⟨r, hr⟩
  · intro x hx
    obtain ⟨l, hl, ho⟩ := I.pend x hx
    have hxt : x ≠ t := by rintro rfl; rw [hn] at hl; cases hl
    exact ⟨l, by simp only [addReady_container, Function.update_of_ne hxt]; exact hl, ho⟩
  · intro hg hp hy
    simp only [Bool.or_eq_false_iff] at hp
    obtain ⟨hp1, hp2⟩ := hp
    obtain ⟨⟨r, hr⟩, hall⟩ := I.high hg hp1 hy
    have hct : s.current ≠ t := by rintro h; rw [h, hn] at hr; cases hr
    have hpc : (addReady { s with prio := Function.update s.prio t q, base := Function.update s.base t q } t).prio = Function.update s.prio t q := rfl
    have hcc : (addReady { s with prio := Function.update s.prio t q, base := Function.update s.base t q } t).current = s.current := rfl
    rw [hpc, hcc, Function.update_of_ne hct] at hp2
    simp only [decide_eq_false_iff_not] at hp2
    constructor
    · simp only [addReady_container, hcc, Function.update_of_ne hct]
      exact ⟨r, hr⟩
    · intro x y hx
      simp only [hpc, hcc, Function.update_of_ne hct]
      simp only [addReady_container] at hx
      by_cases hxt : x = t
      · subst hxt; simp at hx; omega
      · rw [Function.update_of_ne hxt] at hx; exact hall x y hx
  · refine ⟨?_, by rw [Function.update_of_ne (by simp)]⟩
    intro r x _ _
    by_cases hr : r = Function.update s.prio t q t
    · have hr' : r = q := by simpa using hr
      subst hr'
      simp only [Function.update_self]
      exact .ins t .refl
    · rw [Function.update_of_ne (by simpa using hr)]
      exact .refl

theorem resumeAll_spec {s : St} {c : Lists} (I : Inv0 g s c) (tss : List (List Nat)) :
    ∃ s' c', resumeAll s tss = .ok s' ∧ Inv0 g s' c' ∧ Grow c c' := by
  unfold resumeAll
  simp only
  by_cases h1 : s.susp - 1 ≠ 0
  · rw [if_pos h1]
    exact ⟨_, c, rfl, ⟨I.core.same rfl rfl rfl rfl, I.idle, I.pend, I.nodup, fun h => absurd h h1, I.high⟩, .refl c⟩
  · rw [if_neg h1]
    obtain ⟨s1, c1, e1, I1, g1, l1⟩ := drain_spec s.pending
      (s := { s with susp := s.susp - 1, pending := [] }) (I.core.same rfl rfl rfl rfl) I.nodup I.pend
    rw [e1]
    simp only
    obtain ⟨s2, c2, e2, I2, g2, l2⟩ := makeUp_spec tss I1
    rw [e2]
    simp only
    have l := l1.trans l2
    refine ⟨_, c2, rfl, ⟨I2.same rfl rfl rfl rfl, l.woke.idle I.idle, ?_, ?_, fun _ => l.pending, ?_⟩, g1.trans g2⟩
    · intro x hx
      simp only [l.pending] at hx
      cases hx
    · simp only [l.pending]; exact List.nodup_nil
    · intro hg hp hy
      simp only [Bool.or_eq_false_iff] at hp
      have hy' : s.yieldPending = false := by
        by_contra hcon
        have := l.owed (by simpa using hcon)
        simp only at hy
        rw [hy] at this; cases this
      have := I.high hg (by rw [← l.pend]; exact hp.1) hy'
      exact l.woke.high hy l.prio l.current this

/-- Every event but the end of a task. -/
theorem step_spec0 {j : Prop} {s : St} {c : Lists} (I0 : Inv0 g s c) (e : Ev) (hd : e ≠ .delete) (hre : e ≠ .reap)
    (hh : j → g ∧ GoodEv s e) :
    ∃ s' c', step s e = .ok s' ∧ Inv0 j s' c' ∧
      if Switches s e then
        ∃ z, (c (.ready (s'.prio s'.current))).next = some (s'.current, z) ∧
          c' = Function.update c (.ready (s'.prio s'.current)) z ∧ s'.prio = s.prio ∧
          s'.pend = false ∧ s'.yieldPending = false ∧ Highest s'
      else Kept c c' := by
  have I : Inv0 j s c := I0.weaken (fun x => (hh x).1)
  cases e with
  | delete => exact absurd rfl hd
  | reap => exact absurd rfl hre
  | create t p =>
    simp only [Switches, reduceCtorEq, false_and, ↓reduceIte, step]
    by_cases hn : s.heap.container t = none
    · rw [if_pos hn]
      obtain ⟨c', i, k⟩ := create_spec I (p := p) hn
      exact ⟨_, c', rfl, i, k⟩
    · rw [if_neg hn]; exact ⟨s, c, rfl, I, .refl c⟩
  | block w =>
    simp only [Switches, reduceCtorEq, false_and, ↓reduceIte, step]
    by_cases h : isReady s s.current = true ∧ s.current ≠ idle
    · rw [if_pos h]; exact block_spec I w h.1 h.2
    · rw [if_neg h]; exact ⟨s, c, rfl, I, .refl c⟩
  | tick ts =>
    simp only [Switches, reduceCtorEq, false_and, ↓reduceIte, step]
    by_cases h0 : s.susp = 0
    · rw [if_pos h0]
      obtain ⟨req, h, b, c', e1, I1, g1, h1, w1⟩ := tickBody_spec I.core ts
      rw [e1]
      simp only
      refine ⟨_, c', rfl, ⟨I1.same rfl rfl rfl rfl, w1.idle I.idle, ?_, I.nodup, I.empty, ?_⟩, g1.kept⟩
      · intro x hx
        rw [I.empty h0] at hx; cases hx
      · intro hg hp hy
        simp only [Bool.or_eq_false_iff] at hp
        exact w1.high (s' := { s with heap := h, top := b, pend := s.pend || req }) hp.2 rfl rfl (I.high hg hp.1 hy)
    · rw [if_neg h0]
      refine ⟨_, c, rfl, ⟨I.core.same rfl rfl rfl rfl, I.idle, I.pend, I.nodup, I.empty, ?_⟩, .refl c⟩
      intro hg hp hy
      simp only [Bool.or_eq_false_iff] at hp
      exact I.high hg hp.1 hy
  | event t asks =>
    simp only [Switches, reduceCtorEq, false_and, ↓reduceIte, step]
    by_cases hb : isBlocked s t = true
    · rw [if_pos hb]
      obtain ⟨wk, s2, c2, g1, g2, g3, g4, g5, g6, g7, g8⟩ := event_spec I hb
      rw [g1]
      simp only
      refine ⟨_, c2, rfl, ⟨g2.core.same rfl rfl rfl rfl, g2.idle, g2.pend, g2.nodup, g2.empty, ?_⟩, g3.kept⟩
      intro hg hp hy
      simp only [Bool.or_eq_false_iff] at hp
      exact g2.high hg hp.1 hy
    · rw [if_neg hb]; exact ⟨s, c, rfl, I, .refl c⟩
  | notify t =>
    simp only [Switches, reduceCtorEq, false_and, ↓reduceIte, step]
    by_cases hb : isBlocked s t = true
    · rw [if_pos hb]
      obtain ⟨hnp, l, hl, ho⟩ := blocked_spec hb
      obtain ⟨h, b, c1, e1, e2, I1, g1⟩ := core_wake I.core hl ho
      rw [e1]
      simp only
      have w1 := wake_woke (b := b) hl ho e2 (decide (s.prio s.current < s.prio t))
        (fun hr => by simp only [decide_eq_false_iff_not] at hr; omega)
      refine ⟨_, c1, rfl, ⟨I1.same rfl rfl rfl rfl, w1.idle I.idle,
        pend_woke (s' := { s with heap := h, top := b }) I hnp e2 rfl, I.nodup, I.empty, ?_⟩, g1.kept⟩
      intro hg hp hy
      simp only [Bool.or_eq_false_iff] at hp
      exact w1.high (s' := { s with heap := h, top := b, pend := _ }) hp.2 rfl rfl (I.high hg hp.1 hy)
    · rw [if_neg hb]; exact ⟨s, c, rfl, I, .refl c⟩
  | suspendAll =>
    simp only [Switches, reduceCtorEq, false_and, ↓reduceIte, step]
    exact ⟨_, c, rfl, ⟨I.core.same rfl rfl rfl rfl, I.idle, I.pend, I.nodup, fun h => by simp at h, I.high⟩, .refl c⟩
  | resumeAll tss =>
    simp only [Switches, reduceCtorEq, false_and, ↓reduceIte, step]
    by_cases h0 : s.susp = 0
    · rw [if_pos h0]; exact ⟨s, c, rfl, I, .refl c⟩
    · rw [if_neg h0]
      obtain ⟨s', c', h1, h2, h3⟩ := resumeAll_spec I tss
      exact ⟨s', c', h1, h2, h3.kept⟩
  | inherit t =>
    simp only [Switches, reduceCtorEq, false_and, ↓reduceIte, step]
    by_cases ht : t = s.current
    · rw [if_pos ht]; exact ⟨s, c, rfl, I, .refl c⟩
    · rw [if_neg ht]; exact inherit_spec I ht
  | give w =>
    simp only [Switches, reduceCtorEq, false_and, ↓reduceIte, step]
    by_cases h : isReady s s.current = true ∧ (∀ t ∈ w, isBlocked s t = true)
    · rw [if_pos h]; exact give_spec I0 hh h.1 h.2
    · rw [if_neg h]; exact ⟨s, c, rfl, I, .refl c⟩
  | timeout t p =>
    simp only [Switches, reduceCtorEq, false_and, ↓reduceIte, step]
    by_cases h : t ≠ s.current ∧ p ≤ s.prio t ∧
        (isReady s t = true → s.prio t = max (s.base t) p ∨ 1 < s.heap.count (.ready (s.prio t)))
    · rw [if_pos h]; exact timeout_spec I h.1 h.2.1 h.2.2
    · rw [if_neg h]; exact ⟨s, c, rfl, I, .refl c⟩
  | yield =>
    simp only [Switches, reduceCtorEq, false_and, ↓reduceIte, step]
    exact ⟨_, c, rfl, ⟨I.core.same rfl rfl rfl rfl, I.idle, I.pend, I.nodup, I.empty, fun _ hp => by cases hp⟩, .refl c⟩
  | switch =>
    rw [step]
    by_cases hp : s.pend = true
    · rw [if_pos hp]
      unfold switchContext
      by_cases h0 : s.susp ≠ 0
      · have hns : ¬ Switches s .switch := fun h => h0 h.2.2
        simp only [if_neg hns]
        rw [if_pos h0]
        exact ⟨_, c, rfl, ⟨I.core.same rfl rfl rfl rfl, I.idle, I.pend, I.nodup, I.empty, fun _ _ hy => by cases hy⟩, .refl c⟩
      · have h0' : s.susp = 0 := by simpa using h0
        have hys : Switches s .switch := ⟨rfl, hp, h0'⟩
        simp only [if_pos hys]
        rw [if_neg h0]
        obtain ⟨r, hr⟩ := I.idle
        obtain ⟨x, p, h, z, e1, e2, e3, e4, e5, I1⟩ := core_select
          (s := { s with yieldPending := false, pend := false }) (I.core.same rfl rfl rfl rfl) ⟨_, r, hr⟩
        have hpx : s.prio x = p := I.core.prios _ _ e3
        have hhi : Highest { s with yieldPending := false, pend := false, heap := h, current := x } := by
          constructor
          · simp only [e2]; exact ⟨p, e3⟩
          · intro t q ht
            simp only [e2] at ht
            simp only [hpx]
            exact e4 t q ht
        refine ⟨_, _, e1, ⟨I1, ?_, ?_, I.nodup, I.empty, fun _ _ _ => hhi⟩, z, ?_, ?_, rfl, rfl, rfl, hhi⟩
        · simp only [e2]; exact I.idle
        · simp only [e2]; exact I.pend
        · simp only [hpx]; exact e5
        · simp only [hpx]
    · have hns : ¬ Switches s .switch := fun h => hp h.2.1
      simp only [if_neg hns]
      rw [if_neg hp]
      exact ⟨s, c, rfl, I, .refl c⟩

/-- Only the end of a task and the clearing up change the count. -/
theorem wake_cleanup {s s' : St} {t : Nat} (h : wake s t = .ok s') : s'.cleanup = s.cleanup := by
  unfold wake at h
  split at h
  · cases h
  · rw [← Except.ok.inj h]; rfl

theorem takeReady_cleanup {s s' : St} {t q : Nat} (h : takeReady s t q = .ok s') : s'.cleanup = s.cleanup := by
  unfold takeReady at h
  split at h
  · cases h
  · rw [← Except.ok.inj h]

theorem moveReady_cleanup {s s' : St} {t p : Nat} (h : moveReady s t p = .ok s') : s'.cleanup = s.cleanup := by
  unfold moveReady at h
  split at h
  · cases h
  · rename_i s1 h1
    rw [← Except.ok.inj h]
    have k := takeReady_cleanup h1
    exact k

theorem wakeAll_cleanup : ∀ (ts : List Nat) {s s' : St} {r r' : Bool} (_ : wakeAll s r ts = .ok (r', s')),
    s'.cleanup = s.cleanup
  | [], s, s', r, r', h => by
    rw [wakeAll] at h
    cases h; rfl
  | t :: ts, s, s', r, r', h => by
    rw [wakeAll] at h
    split at h
    · split at h
      · cases h
      · rename_i s1 h1
        have k1 := wakeAll_cleanup ts h
        have k2 := wake_cleanup h1
        exact k1.trans k2
    · exact wakeAll_cleanup ts h

theorem tickBody_cleanup {s s' : St} {ts : List Nat} {r : Bool} (h : tickBody s ts = .ok (r, s')) :
    s'.cleanup = s.cleanup := by
  unfold tickBody at h
  split at h
  · cases h
  · rename_i s1 h1
    cases h
    exact wakeAll_cleanup ts h1

theorem drain_cleanup : ∀ (ts : List Nat) {s s' : St} (_ : drain s ts = .ok s'), s'.cleanup = s.cleanup
  | [], s, s', h => by rw [drain] at h; cases h; rfl
  | t :: ts, s, s', h => by
    rw [drain] at h
    split at h
    · cases h
    · rename_i s1 h1
      have k1 := drain_cleanup ts h
      have k2 := wake_cleanup h1
      exact k1.trans k2

theorem makeUp_cleanup : ∀ (tss : List (List Nat)) {s s' : St} (_ : makeUp s tss = .ok s'), s'.cleanup = s.cleanup
  | [], s, s', h => by rw [makeUp] at h; cases h; rfl
  | t :: ts, s, s', h => by
    rw [makeUp] at h
    split at h
    · cases h
    · rename_i s1 h1
      have k1 := makeUp_cleanup ts h
      have k2 := tickBody_cleanup h1
      exact k1.trans k2

theorem event_cleanup {s s' : St} {t : Nat} {w : Bool} (h : event s t = .ok (w, s')) : s'.cleanup = s.cleanup := by
  unfold event at h
  split at h
  · cases h
  · rename_i s1 h1
    have h2 : s1.cleanup = s.cleanup := by
      split_ifs at h1
      · exact wake_cleanup h1
      · cases h1; rfl
    split_ifs at h <;> cases h <;> exact h2

theorem step_cleanup {s s' : St} {e : Ev} (h : step s e = .ok s') (hd : e ≠ .delete) (hre : e ≠ .reap) :
    s'.cleanup = s.cleanup := by
  cases e with
  | delete => exact absurd rfl hd
  | reap => exact absurd rfl hre
  | create t p =>
    simp only [step] at h
    split_ifs at h <;> cases h <;> rfl
  | block w =>
    simp only [step] at h
    split_ifs at h
    · unfold block at h
      split at h
      · cases h
      · rename_i s1 h1
        have h2 := takeReady_cleanup h1
        split at h
        · cases h; exact h2
        · simp only at h
          split at h
          · cases h
          · cases h; exact h2
    · cases h; rfl
  | tick ts =>
    simp only [step] at h
    split_ifs at h
    · split at h
      · cases h
      · rename_i s1 h1
        cases h
        have k := tickBody_cleanup h1
        exact k
    · cases h; rfl
  | event t a =>
    simp only [step] at h
    split_ifs at h
    · split at h
      · cases h
      · rename_i s1 h1
        cases h
        have k := event_cleanup h1
        exact k
    · cases h; rfl
  | notify t =>
    simp only [step] at h
    split_ifs at h
    · split at h
      · cases h
      · rename_i s1 h1
        cases h
        have k := wake_cleanup h1
        exact k
    · cases h; rfl
  | suspendAll => cases h; rfl
  | resumeAll tss =>
    simp only [step] at h
    split_ifs at h
    · cases h; rfl
    · unfold resumeAll at h
      simp only at h
      split_ifs at h
      · cases h; rfl
      · split at h
        · cases h
        · rename_i s1 h1
          split at h
          · cases h
          · rename_i s2 h2
            cases h
            have k1 := makeUp_cleanup tss h2
            have k2 := drain_cleanup _ h1
            exact k1.trans k2
  | inherit t =>
    simp only [step] at h
    split_ifs at h
    · cases h; rfl
    · unfold inherit at h
      split_ifs at h
      · exact moveReady_cleanup h
      · cases h; rfl
      · cases h; rfl
  | give w =>
    simp only [step] at h
    split_ifs at h
    · unfold give at h
      split at h
      · cases h
      · rename_i s1 h1
        have h2 : s1.cleanup = s.cleanup := by
          unfold disinherit at h1
          split_ifs at h1
          · split at h1
            · cases h1
            · rename_i s2 h2
              cases h1
              have k := moveReady_cleanup h2
              exact k
          · cases h1; rfl
        split at h
        · cases h; exact h2
        · split at h
          · cases h
          · rename_i s2 h3
            cases h
            exact (event_cleanup h3).trans h2
    · cases h; rfl
  | timeout t p =>
    simp only [step] at h
    split_ifs at h
    · unfold timeout at h
      simp only at h
      generalize (if s.base t < p then p else s.base t) = q at h
      split_ifs at h
      · cases h; rfl
      · split at h
        · cases h
        · rename_i s1 h1
          cases h
          have k := takeReady_cleanup h1
          exact k
      · cases h; rfl
    · cases h; rfl
  | yield => cases h; rfl
  | switch =>
    simp only [step] at h
    split_ifs at h
    · unfold switchContext at h
      split_ifs at h
      · cases h; rfl
      · unfold select at h
        simp only at h
        split_ifs at h
        split at h
        · cases h
        · cases h; rfl
    · cases h; rfl

/-- What holds between two events; the count of the tasks that have ended is the length of their list. -/
structure Inv (g : Prop) (s : St) (c : Lists) : Prop extends Inv0 g s c where
  clean : s.cleanup = (c .ended).all.length

theorem Inv.weaken {h : Prop} {s : St} {c : Lists} (I : Inv g s c) (k : h → g) : Inv h s c :=
  ⟨I.toInv0.weaken k, I.clean⟩

/-- Every event is handled without undefined behaviour or failed assertion and keeps the
invariant. A context switch takes the next task in turn of the highest list in use. -/
theorem step_spec {j : Prop} {s : St} {c : Lists} (I : Inv g s c) (e : Ev) (hh : j → g ∧ GoodEv s e) :
    ∃ s' c', step s e = .ok s' ∧ Inv j s' c' ∧
      if Switches s e then
        ∃ z, (c (.ready (s'.prio s'.current))).next = some (s'.current, z) ∧
          c' = Function.update c (.ready (s'.prio s'.current)) z ∧ s'.prio = s.prio ∧
          s'.pend = false ∧ s'.yieldPending = false ∧ Highest s'
      else Turns c c' := by
  by_cases hd : e = .delete
  · subst hd
    have J : Inv0 j s c := I.toInv0.weaken (fun x => (hh x).1)
    simp only [Switches, reduceCtorEq, false_and, ↓reduceIte, step]
    by_cases h : isReady s s.current = true ∧ s.current ≠ idle ∧ s.susp = 0
    · rw [if_pos h]
      obtain ⟨s', c', e1, I1, k1, n1, n2⟩ := delete_spec J h.1 h.2.1 h.2.2
      exact ⟨s', c', e1, ⟨I1, by rw [n1, n2, I.clean]⟩, k1⟩
    · rw [if_neg h]; exact ⟨s, c, rfl, ⟨J, I.clean⟩, (Kept.refl c).1⟩
  by_cases hre : e = .reap
  · subst hre
    have J : Inv0 j s c := I.toInv0.weaken (fun x => (hh x).1)
    simp only [Switches, reduceCtorEq, false_and, ↓reduceIte, step]
    by_cases h : s.current = idle
    · rw [if_pos h]
      obtain ⟨s', c', e1, I1, k1, n1⟩ := reap_spec J I.clean
      exact ⟨s', c', e1, ⟨I1, n1⟩, k1⟩
    · rw [if_neg h]; exact ⟨s, c, rfl, ⟨J, I.clean⟩, (Kept.refl c).1⟩
  obtain ⟨s', c', e1, I1, h1⟩ := step_spec0 I.toInv0 e hd hre hh
  have hc := step_cleanup e1 hd hre
  refine ⟨s', c', e1, ⟨I1, ?_⟩, ?_⟩
  · rw [hc, I.clean]
    split_ifs at h1
    · obtain ⟨z, _, h2, _⟩ := h1
      rw [h2, Function.update_of_ne (by simp)]
    · rw [h1.2]
  · split_ifs at h1 ⊢
    · exact h1
    · exact h1.1

end Verif.Ready
