import Verif.Spec.CanBus
import Mathlib.Data.List.Induction
import Mathlib.Tactic.SplitIfs
import Mathlib.Data.List.Perm.Basic

set_option autoImplicit false

/-!
# C114, C115, C116: what becomes of accepted frames on a real bus
-/

namespace Verif.CanBus

theorem run_nil (c : Mcr) (s : St) : run c s [] = s := rfl
theorem run_cons (c : Mcr) (s : St) (e : Ev) (es : List Ev) :
    run c s (e :: es) = run c (step c s e) es := rfl
theorem run_append (c : Mcr) (s : St) (a b : List Ev) : run c s (a ++ b) = run c (run c s a) b := by
  simp [run]
theorem run_concat (c : Mcr) (s : St) (a : List Ev) (e : Ev) :
    run c s (a ++ [e]) = step c (run c s a) e := by simp [run]

theorem fin3 (m : Fin 3) : m = 0 ∨ m = 1 ∨ m = 2 := by omega

/-! ### The mailbox picked -/

theorem better_mem (c : Mcr) (x y : Option (Fin 3 × Req)) (p : Fin 3 × Req) (h : better c x y = some p) :
    x = some p ∨ y = some p := by
  rcases x with _ | ⟨i, a⟩ <;> rcases y with _ | ⟨j, b⟩ <;> simp only [better] at h
  · cases h
  · exact Or.inr h
  · exact Or.inl h
  · split_ifs at h
    · exact Or.inr h
    · exact Or.inl h

theorem cand_mem (s : St) (k m : Fin 3) (r : Req) (h : s.cand k = some (m, r)) : s.box m = some r := by
  unfold St.cand at h
  rcases hb : s.box k with _ | q
  · rw [hb] at h; cases h
  · rw [hb] at h
    simp only [Option.map_some, Option.some.injEq, Prod.mk.injEq] at h
    obtain ⟨rfl, rfl⟩ := h
    exact hb

theorem pick_box (c : Mcr) (s : St) (m : Fin 3) (r : Req) (h : pick c s = some (m, r)) :
    s.box m = some r := by
  rcases better_mem c _ _ _ h with h | h
  · rcases better_mem c _ _ _ h with h | h
    · exact cand_mem s _ m r h
    · exact cand_mem s _ m r h
  · exact cand_mem s _ m r h

theorem better_none (c : Mcr) (x y : Option (Fin 3 × Req)) : better c x y = none ↔ x = none ∧ y = none := by
  rcases x with _ | ⟨i, a⟩ <;> rcases y with _ | ⟨j, b⟩ <;> simp only [better]
  · simp
  · simp
  · simp
  · split_ifs <;> simp

theorem pick_none (c : Mcr) (s : St) : pick c s = none ↔ ∀ m, s.box m = none := by
  simp only [pick, better_none, St.cand, Option.map_eq_none_iff]
  constructor
  · rintro ⟨⟨h0, h1⟩, h2⟩ m
    rcases fin3 m with rfl | rfl | rfl
    · exact h0
    · exact h1
    · exact h2
  · intro h; exact ⟨⟨h 0, h 1⟩, h 2⟩

theorem pending_nil (s : St) : s.pending = [] ↔ ∀ m, s.box m = none := by
  simp only [St.pending, List.map_eq_nil_iff, List.append_eq_nil_iff, Option.toList_eq_nil_iff]
  constructor
  · rintro ⟨⟨h0, h1⟩, h2⟩ m
    rcases fin3 m with rfl | rfl | rfl
    · exact h0
    · exact h1
    · exact h2
  · intro h; exact ⟨⟨h 0, h 1⟩, h 2⟩

/-- Filling an empty mailbox adds its frame to the pending ones. -/
theorem pending_fill (s : St) (m : Fin 3) (r : Req) (h : s.box m = none) :
    ({ s with box := upd s.box m (some r) } : St).pending.Perm (r.frame :: s.pending) := by
  rcases fin3 m with rfl | rfl | rfl <;> simp only [St.pending, upd] at * <;> simp_all
  · rw [← List.append_assoc]; exact List.perm_append_singleton _ _

/-- Emptying a full mailbox removes it. -/
theorem pending_drop (s : St) (m : Fin 3) (r : Req) (h : s.box m = some r) :
    s.pending.Perm (r.frame :: ({ s with box := upd s.box m none } : St).pending) := by
  rcases fin3 m with rfl | rfl | rfl <;> simp only [St.pending, upd] at * <;> simp_all
  · rw [← List.append_assoc]; exact List.perm_append_singleton _ _

/-! ### Effect of the events -/

/-- After a call that found mailbox `m` empty. -/
def filled (s : St) (m : Fin 3) (f : Frame) : St where
  box := upd s.box m (some ⟨s.reqs, f⟩)
  queue := s.queue
  tec := s.tec
  off := s.off
  reqs := s.reqs + 1
  accepted := s.accepted ++ [f]
  bus := s.bus
  lost := s.lost

/-- The ways a call can go. -/
theorem send_cases (f : Frame) (m : Fin 3) (s : St) :
    (s.box m = none ∧ send f m s = (filled s m f, true)) ∨
    ((∀ i, s.box i ≠ none) ∧ s.queue.length < queueLen ∧
      send f m s = ({ s with queue := s.queue ++ [f], accepted := s.accepted ++ [f] }, true)) ∨
    send f m s = (s, false) := by
  simp only [send]
  split_ifs with h1 h2
  · rcases hb : s.box m with _ | r
    · exact Or.inl ⟨rfl, rfl⟩
    · exact Or.inr (Or.inr rfl)
  · refine Or.inr (Or.inl ⟨?_, h2, rfl⟩)
    intro i hi
    apply h1
    rcases fin3 i with rfl | rfl | rfl <;> simp [St.room, hi]
  · exact Or.inr (Or.inr rfl)

/-- The ways a slot can go. -/
theorem slot_cases (c : Mcr) (rival : Option Nat) (fault : Option Fault) (s : St) :
    slot c rival fault s = s ∨
    ∃ m r, s.off = false ∧ pick c s = some (m, r) ∧
      ((outranked rival r.frame = true ∧ slot c rival fault s = giveUp c m r.frame s) ∨
       (outranked rival r.frame = false ∧ fault = none ∧ slot c rival fault s =
          { s with box := upd s.box m none, tec := s.tec - 1, bus := s.bus ++ [r.frame] }) ∨
       (outranked rival r.frame = false ∧ ∃ w, fault = some w ∧ slot c rival fault s =
          { giveUp c m r.frame s with tec := penalty w s.tec, off := 255 < penalty w s.tec })) := by
  simp only [slot]
  split_ifs with ho
  · exact Or.inl rfl
  · rcases hp : pick c s with _ | ⟨m, r⟩
    · exact Or.inl rfl
    · right
      refine ⟨m, r, by simpa using ho, rfl, ?_⟩
      dsimp only
      split_ifs with hr
      · exact Or.inl ⟨hr, rfl⟩
      · rcases fault with _ | w
        · exact Or.inr (Or.inl ⟨by simpa using hr, rfl, rfl⟩)
        · refine Or.inr (Or.inr ⟨by simpa using hr, w, rfl, ?_⟩)
          have : (giveUp c m r.frame s).tec = s.tec := by unfold giveUp; split_ifs <;> rfl
          simp only [this]

theorem giveUp_nart (c : Mcr) (h : c.nart = true) (m : Fin 3) (f : Frame) (s : St) :
    giveUp c m f s = { s with box := upd s.box m none, lost := s.lost ++ [f] } := by simp [giveUp, h]

theorem giveUp_keep (c : Mcr) (h : c.nart = false) (m : Fin 3) (f : Frame) (s : St) :
    giveUp c m f s = s := by simp [giveUp, h]

/-! ### Accounting -/

theorem accounted_step (c : Mcr) (s : St) (e : Ev) (h : Accounted s) : Accounted (step c s e) := by
  rcases e with ⟨f, m⟩ | ⟨rival, fault⟩ | _
  · simp only [step]
    rcases send_cases f m s with ⟨hb, hs⟩ | ⟨-, -, hs⟩ | hs
    · rw [hs]
      unfold Accounted at *
      have h1 := pending_fill s m ⟨s.reqs, f⟩ hb
      have h2 : (filled s m f).pending = ({ s with box := upd s.box m (some ⟨s.reqs, f⟩) } : St).pending := rfl
      rw [h2]
      dsimp only [filled]
      refine (List.perm_append_singleton f s.accepted).trans ?_
      refine ((h.cons f).trans ?_)
      refine List.perm_middle.symm.trans ?_
      exact List.Perm.append_left _ h1.symm
    · rw [hs]
      unfold Accounted at *
      have h2 : ({ s with queue := s.queue ++ [f], accepted := s.accepted ++ [f] } : St).pending =
          s.pending := rfl
      rw [h2]
      dsimp only
      refine (List.perm_append_singleton f s.accepted).trans ?_
      refine ((h.cons f).trans ?_)
      simp only [List.append_assoc]
      refine List.Perm.trans ?_ (List.Perm.append_left _ (List.Perm.append_left _ (List.Perm.append_left _
        (List.perm_append_comm (l₁ := s.pending) (l₂ := [f])))))
      have : f :: (s.bus ++ (s.lost ++ (s.queue ++ s.pending))) =
        [f] ++ (s.bus ++ (s.lost ++ (s.queue ++ s.pending))) := rfl
      rw [this]
      refine List.perm_append_comm.trans ?_
      simp
    · rw [hs]; exact h
  · simp only [step]
    have hgive : ∀ m r, pick c s = some (m, r) → Accounted (giveUp c m r.frame s) := by
      intro m r hp
      unfold giveUp
      split_ifs
      · unfold Accounted at *
        have h1 := pending_drop s m r (pick_box c s m r hp)
        have h2 : ({ s with box := upd s.box m none, lost := s.lost ++ [r.frame] } : St).pending =
          ({ s with box := upd s.box m none } : St).pending := rfl
        rw [h2]
        dsimp only
        refine h.trans ((List.Perm.append_left _ h1).trans ?_)
        generalize ({ s with box := upd s.box m none } : St).pending = q
        simp only [List.append_assoc]
        refine List.Perm.append_left _ (List.Perm.append_left _ ?_)
        simpa using List.perm_middle
      · exact h
    rcases slot_cases c rival fault s with hs | ⟨m, r, ho, hp, hs⟩
    · rw [hs]; exact h
    · rcases hs with ⟨-, hs⟩ | ⟨-, -, hs⟩ | ⟨-, w, -, hs⟩
      · rw [hs]; exact hgive m r hp
      · rw [hs]
        unfold Accounted at *
        have h1 := pending_drop s m r (pick_box c s m r hp)
        have h2 : ({ s with box := upd s.box m none, tec := s.tec - 1, bus := s.bus ++ [r.frame] } : St).pending =
          ({ s with box := upd s.box m none } : St).pending := rfl
        rw [h2]
        dsimp only
        refine h.trans ((List.Perm.append_left _ h1).trans ?_)
        generalize ({ s with box := upd s.box m none } : St).pending = q
        simp only [List.append_assoc]
        refine List.Perm.append_left _ ?_
        have := List.perm_middle (a := r.frame) (l₁ := s.lost ++ s.queue) (l₂ := q)
        simpa using this
      · rw [hs]; exact hgive m r hp
  · simp only [step]
    split_ifs
    · exact h
    · exact h

/-- **C114, accounting.** Whatever the settings and whatever happens on the bus, every accepted frame is on
the bus once, or was given up, or waits in the queue or a mailbox. -/
theorem C114_accounted (c : Mcr) (es : List Ev) : Accounted (run c boot es) := by
  induction es using List.reverseRecOn with
  | nil => exact List.Perm.refl _
  | append_singleton es e ih => rw [run_concat]; exact accounted_step c _ e ih

/-! ### Frames that never arrive -/

/-- Frame `f` is not on its way: not on the bus and in no mailbox. -/
def Gone (f : Frame) (s : St) : Prop := f ∉ s.bus ∧ ∀ m r, s.box m = some r → r.frame ≠ f

theorem upd_some {s : St} {m i : Fin 3} {v : Option Req} {r : Req} (h : upd s.box m v i = some r) :
    v = some r ∨ s.box i = some r := by
  unfold upd at h; split_ifs at h
  · exact Or.inl h
  · exact Or.inr h

theorem gone_giveUp (c : Mcr) (f g : Frame) (m : Fin 3) (s : St) (h : Gone f s) :
    Gone f (giveUp c m g s) := by
  unfold giveUp
  split_ifs
  · refine ⟨h.1, fun i r hr => ?_⟩
    rcases upd_some hr with h1 | h1
    · cases h1
    · exact h.2 i r h1
  · exact h

theorem gone_step (c : Mcr) (f : Frame) (s : St) (e : Ev) (he : ∀ m, e ≠ .send f m) (h : Gone f s) :
    Gone f (step c s e) := by
  rcases e with ⟨g, m⟩ | ⟨rival, fault⟩ | _
  · simp only [step]
    rcases send_cases g m s with ⟨hb, hs⟩ | ⟨-, -, hs⟩ | hs
    · rw [hs]
      refine ⟨h.1, fun i r hr => ?_⟩
      rcases upd_some hr with h1 | h1
      · cases h1
        rintro rfl
        exact he m rfl
      · exact h.2 i r h1
    · rw [hs]; exact h
    · rw [hs]; exact h
  · simp only [step]
    rcases slot_cases c rival fault s with hs | ⟨m, r, ho, hp, hs⟩
    · rw [hs]; exact h
    · rcases hs with ⟨-, hs⟩ | ⟨-, -, hs⟩ | ⟨-, w, -, hs⟩
      · rw [hs]; exact gone_giveUp c f _ m s h
      · rw [hs]
        refine ⟨?_, fun i q hq => ?_⟩
        · simp only [List.mem_append, List.mem_singleton, not_or]
          exact ⟨h.1, fun hf => h.2 m r (pick_box c s m r hp) hf.symm⟩
        · rcases upd_some hq with h1 | h1
          · cases h1
          · exact h.2 i q h1
      · rw [hs]; exact gone_giveUp c f _ m s h
  · simp only [step]
    split_ifs
    · exact h
    · exact h

theorem gone_run (c : Mcr) (f : Frame) (es : List Ev) (he : ∀ e ∈ es, ∀ m, e ≠ .send f m) :
    ∀ s, Gone f s → Gone f (run c s es) := by
  induction es with
  | nil => intro s h; exact h
  | cons e es ih =>
    intro s h
    rw [run_cons]
    exact ih (fun x hx => he x (by simp [hx])) _ (gone_step c f s e (he e (by simp)) h)

theorem accepted_step (c : Mcr) (f : Frame) (s : St) (e : Ev) (h : f ∈ s.accepted) :
    f ∈ (step c s e).accepted := by
  have hg : ∀ m g, f ∈ (giveUp c m g s).accepted := by
    intro m g; unfold giveUp; split_ifs <;> exact h
  rcases e with ⟨g, m⟩ | ⟨rival, fault⟩ | _
  · simp only [step]
    rcases send_cases g m s with ⟨hb, hs⟩ | ⟨-, -, hs⟩ | hs <;> rw [hs] <;> simp [h, filled]
  · simp only [step]
    rcases slot_cases c rival fault s with hs | ⟨m, r, ho, hp, hs⟩
    · rw [hs]; exact h
    · rcases hs with ⟨-, hs⟩ | ⟨-, -, hs⟩ | ⟨-, w, -, hs⟩ <;> rw [hs]
      · exact hg _ _
      · exact h
      · exact hg _ _
  · simp only [step]
    split_ifs <;> exact h

theorem accepted_run (c : Mcr) (f : Frame) (es : List Ev) :
    ∀ s, f ∈ s.accepted → f ∈ (run c s es).accepted := by
  induction es with
  | nil => intro s h; exact h
  | cons e es ih => intro s h; rw [run_cons]; exact ih _ (accepted_step c f s e h)

/-- A single frame in mailbox `m` of a peripheral that was just started is the one picked. -/
theorem pick_single (c : Mcr) (m : Fin 3) (r : Req) (s : St) (h : s.box = upd (fun _ => none) m (some r)) :
    pick c s = some (m, r) := by
  rcases fin3 m with rfl | rfl | rfl <;> simp [pick, St.cand, h, upd, better]

theorem send_boot (f : Frame) (m : Fin 3) : send f m boot = (filled boot m f, true) := by
  simp [send, boot, St.room, filled]

theorem shipped_nart : shipped.nart = true := rfl
theorem shipped_abom : shipped.abom = false := rfl
theorem shipped_txfp : shipped.txfp = false := rfl

theorem slot_outranked (s : St) (m : Fin 3) (q : Req) (r : Nat) (w : Option Fault) (ho : s.off = false)
    (hp : pick shipped s = some (m, q)) (hr : r < q.frame.id) : slot shipped (some r) w s =
      { s with box := upd s.box m none, lost := s.lost ++ [q.frame] } := by
  simp only [slot, hp, ho, outranked, hr, giveUp_nart _ shipped_nart]
  simp

theorem slot_good (c : Mcr) (s : St) (m : Fin 3) (q : Req) (ho : s.off = false)
    (hp : pick c s = some (m, q)) : slot c none none s =
      { s with box := upd s.box m none, tec := s.tec - 1, bus := s.bus ++ [q.frame] } := by
  simp only [slot, hp, ho, outranked]
  simp

theorem slot_bad (s : St) (m : Fin 3) (q : Req) (w : Fault) (ho : s.off = false)
    (hp : pick shipped s = some (m, q)) : slot shipped none (some w) s =
      { s with box := upd s.box m none, lost := s.lost ++ [q.frame], tec := penalty w s.tec,
               off := 255 < penalty w s.tec } := by
  simp only [slot, hp, ho, outranked, giveUp_nart _ shipped_nart]
  simp

theorem gone_filled (f : Frame) (m : Fin 3) (i : Fin 3) (q : Req)
    (h : upd (filled boot m f).box m none i = some q) : False := by
  simp only [filled, upd] at h
  split_ifs at h
  simp [boot] at h

/-- **C114 is false.** `CAN_SendMessage` returns OK for frame `f`; before it is out, another node starts to
send a frame with a lower identifier. For every such pair of frames and whatever happens afterwards, `f`
never appears on the bus (unless a caller hands it in again): automatic retransmission is switched off. -/
theorem C114_outranked_is_lost (f : Frame) (m : Fin 3) (r : Nat) (w : Option Fault) (hr : r < f.id)
    (es : List Ev) (he : ∀ e ∈ es, ∀ i, e ≠ .send f i) :
    (send f m boot).2 = true ∧
    f ∈ (run shipped boot (.send f m :: .slot (some r) w :: es)).accepted ∧
    f ∉ (run shipped boot (.send f m :: .slot (some r) w :: es)).bus := by
  have hs := send_boot f m
  have h1 : run shipped boot (.send f m :: .slot (some r) w :: es) =
      run shipped (slot shipped (some r) w (send f m boot).1) es := rfl
  have hp : pick shipped (filled boot m f) = some (m, ⟨0, f⟩) := pick_single shipped m ⟨0, f⟩ _ rfl
  rw [h1, hs]
  dsimp only
  rw [slot_outranked (filled boot m f) m ⟨0, f⟩ r w rfl hp hr]
  refine ⟨rfl, accepted_run _ _ _ _ (by simp [filled, boot]),
    (gone_run _ _ _ he _ ⟨by simp [filled, boot], ?_⟩).1⟩
  intro i q hq
  exact (gone_filled f m i q hq).elim

/-- The same for a transmission disturbed by an error. -/
theorem C114_disturbed_is_lost (f : Frame) (m : Fin 3) (w : Fault)
    (es : List Ev) (he : ∀ e ∈ es, ∀ i, e ≠ .send f i) :
    f ∈ (run shipped boot (.send f m :: .slot none (some w) :: es)).accepted ∧
    f ∉ (run shipped boot (.send f m :: .slot none (some w) :: es)).bus := by
  have hs := send_boot f m
  have h1 : run shipped boot (.send f m :: .slot none (some w) :: es) =
      run shipped (slot shipped none (some w) (send f m boot).1) es := rfl
  have hp : pick shipped (filled boot m f) = some (m, ⟨0, f⟩) := pick_single shipped m ⟨0, f⟩ _ rfl
  rw [h1, hs]
  dsimp only
  rw [slot_bad (filled boot m f) m ⟨0, f⟩ w rfl hp]
  refine ⟨accepted_run _ _ _ _ (by simp [filled, boot]),
    (gone_run _ _ _ he _ ⟨by simp [filled, boot], ?_⟩).1⟩
  intro i q hq
  exact (gone_filled f m i q hq).elim

/-- Answers depend on mailboxes and queue only. -/
theorem answers_congr (fs : List (Frame × Fin 3)) : ∀ s t : St, s.box = t.box → s.queue = t.queue →
    s.reqs = t.reqs → answers s fs = answers t fs := by
  induction fs with
  | nil => intros; rfl
  | cons p fs ih =>
    obtain ⟨f, m⟩ := p
    intro s t hb hq hr
    have hroom : s.room = t.room := by simp [St.room, hb]
    have : (send f m s).2 = (send f m t).2 ∧ (send f m s).1.box = (send f m t).1.box ∧
        (send f m s).1.queue = (send f m t).1.queue ∧ (send f m s).1.reqs = (send f m t).1.reqs := by
      simp only [send, hroom, hb, hq, hr]
      split_ifs
      · rcases t.box m with _ | _ <;> simp [hb, hq, hr]
      · simp [hb, hr]
      · simp [hb, hq, hr]
    simp only [answers]
    rw [this.1, ih _ _ this.2.1 this.2.2.1 this.2.2.2]

/-- **C114, unnoticed.** Losing the arbitration leaves mailboxes and queue exactly as a successful
transmission does, so no later call of the driver can tell the difference. -/
theorem C114_loss_is_unnoticed (s : St) (m : Fin 3) (q : Req) (r : Nat) (ho : s.off = false)
    (hp : pick shipped s = some (m, q)) (hr : r < q.frame.id) (fs : List (Frame × Fin 3)) :
    (slot shipped (some r) none s).bus = s.bus ∧ (slot shipped none none s).bus = s.bus ++ [q.frame] ∧
    answers (slot shipped (some r) none s) fs = answers (slot shipped none none s) fs := by
  rw [slot_outranked s m q r none ho hp hr, slot_good shipped s m q ho hp]
  exact ⟨rfl, rfl, answers_congr fs _ _ rfl rfl rfl⟩

/-! ### When nothing is lost -/

theorem giveUp_lost_keep (c : Mcr) (h : c.nart = false) (m : Fin 3) (f : Frame) (s : St) :
    (giveUp c m f s).lost = s.lost := by rw [giveUp_keep c h]

theorem lost_step_keep (c : Mcr) (h : c.nart = false) (s : St) (e : Ev) : (step c s e).lost = s.lost := by
  rcases e with ⟨g, m⟩ | ⟨rival, fault⟩ | _
  · simp only [step]
    rcases send_cases g m s with ⟨hb, hs⟩ | ⟨-, -, hs⟩ | hs <;> rw [hs] <;> simp [filled]
  · simp only [step]
    rcases slot_cases c rival fault s with hs | ⟨m, r, ho, hp, hs⟩
    · rw [hs]
    · rcases hs with ⟨-, hs⟩ | ⟨-, -, hs⟩ | ⟨-, w, -, hs⟩ <;> rw [hs]
      · exact giveUp_lost_keep c h _ _ _
      · exact giveUp_lost_keep c h _ _ _
  · simp only [step]
    split_ifs <;> rfl

/-- With automatic retransmission switched on no frame would ever be given up: whatever happens on the bus,
every accepted frame is on the bus, in a mailbox or in the queue. -/
theorem C114_with_retransmission (c : Mcr) (h : c.nart = false) (es : List Ev) :
    (run c boot es).lost = [] := by
  induction es using List.reverseRecOn with
  | nil => rfl
  | append_singleton es e ih => rw [run_concat, lost_step_keep c h, ih]

/-- What holds while the bus is kind. -/
structure Fine (ids : Nat → Prop) (s : St) : Prop where
  lost : s.lost = []
  on : s.off = false
  mine : ∀ m r, s.box m = some r → ids r.frame.id

theorem fine_step (c : Mcr) (ids : Nat → Prop) (s : St) (e : Ev) (hk : Kind ids e) (hu : Uses ids e)
    (h : Fine ids s) : Fine ids (step c s e) := by
  rcases e with ⟨g, m⟩ | ⟨rival, fault⟩ | _
  · simp only [step]
    rcases send_cases g m s with ⟨hb, hs⟩ | ⟨-, -, hs⟩ | hs
    · rw [hs]
      refine ⟨h.lost, h.on, fun i r hr => ?_⟩
      rcases upd_some hr with h1 | h1
      · cases h1; exact hu
      · exact h.mine i r h1
    · rw [hs]; exact ⟨h.lost, h.on, h.mine⟩
    · rw [hs]; exact h
  · simp only [step]
    rcases slot_cases c rival fault s with hs | ⟨m, r, ho, hp, hs⟩
    · rw [hs]; exact h
    · have hm := h.mine m r (pick_box c s m r hp)
      have hno : outranked rival r.frame = false := by
        rcases hr : rival with _ | q
        · rfl
        · have := hk.2 q hr _ hm
          simp [outranked, this]
      rcases hs with ⟨h1, -⟩ | ⟨-, -, hs⟩ | ⟨-, w, hf, -⟩
      · rw [hno] at h1; cases h1
      · rw [hs]
        refine ⟨h.lost, h.on, fun i q hq => ?_⟩
        rcases upd_some hq with h1 | h1
        · cases h1
        · exact h.mine i q h1
      · rw [hk.1] at hf; cases hf
  · simp only [step, h.on]; exact h

theorem fine_run (c : Mcr) (ids : Nat → Prop) (es : List Ev) (hk : ∀ e ∈ es, Kind ids e)
    (hu : ∀ e ∈ es, Uses ids e) : ∀ s, Fine ids s → Fine ids (run c s es) := by
  induction es with
  | nil => intro s h; exact h
  | cons e es ih =>
    intro s h
    exact ih (fun x hx => hk x (by simp [hx])) (fun x hx => hu x (by simp [hx])) _
      (fine_step c ids s e (hk e (by simp)) (hu e (by simp)) h)

theorem fine_boot (ids : Nat → Prop) : Fine ids boot :=
  ⟨rfl, rfl, fun _ _ h => by simp [boot] at h⟩

/-- A good slot takes one frame out of the mailboxes. -/
theorem pending_good (c : Mcr) (s : St) (ho : s.off = false) :
    (slot c none none s).pending.length = s.pending.length - 1 ∧ (slot c none none s).off = false := by
  rcases hp : pick c s with _ | ⟨m, r⟩
  · have : slot c none none s = s := by simp [slot, hp]
    rw [this, (pending_nil s).2 ((pick_none c s).1 hp)]
    exact ⟨rfl, ho⟩
  · rw [slot_good c s m r ho hp]
    have := (pending_drop s m r (pick_box c s m r hp)).length_eq
    have h2 : ({ s with box := upd s.box m none, tec := s.tec - 1, bus := s.bus ++ [r.frame] } : St).pending =
      ({ s with box := upd s.box m none } : St).pending := rfl
    rw [h2, this]
    exact ⟨rfl, ho⟩

theorem pending_le (s : St) : s.pending.length ≤ 3 := by
  simp only [St.pending, List.length_map, List.length_append]
  rcases s.box 0 with _ | _ <;> rcases s.box 1 with _ | _ <;> rcases s.box 2 with _ | _ <;> simp

/-- **C114 while the bus is kind** (what is missing for the full claim: rivals with lower identifiers and
transmission errors, which lose frames). If in every slot no other node sends a lower identifier and
nothing goes wrong, no frame is given up: every accepted frame is on the bus exactly once, or waits; and
three more good slots put all waiting mailboxes on the bus. -/
theorem C114_kind_bus_partial (c : Mcr) (ids : Nat → Prop) (es : List Ev) (hk : ∀ e ∈ es, Kind ids e)
    (hu : ∀ e ∈ es, Uses ids e) :
    (run c boot es).accepted.Perm ((run c boot es).bus ++ (run c boot es).queue ++ (run c boot es).pending) ∧
    (run c boot (es ++ List.replicate 3 (.slot none none))).accepted.Perm
      ((run c boot (es ++ List.replicate 3 (.slot none none))).bus ++
        (run c boot (es ++ List.replicate 3 (.slot none none))).queue) := by
  have hf := fine_run c ids es hk hu boot (fine_boot ids)
  have ha := C114_accounted c es
  constructor
  · unfold Accounted at ha
    rw [hf.lost] at ha
    simpa using ha
  · have hk3 : ∀ e ∈ es ++ List.replicate 3 (Ev.slot none none), Kind ids e := by
      intro e he
      rcases List.mem_append.1 he with h | h
      · exact hk e h
      · rw [List.eq_of_mem_replicate h]
        exact ⟨rfl, fun r hr => by cases hr⟩
    have hu3 : ∀ e ∈ es ++ List.replicate 3 (Ev.slot none none), Uses ids e := by
      intro e he
      rcases List.mem_append.1 he with h | h
      · exact hu e h
      · rw [List.eq_of_mem_replicate h]
        trivial
    have hf3 := fine_run c ids _ hk3 hu3 boot (fine_boot ids)
    have ha3 := C114_accounted c (es ++ List.replicate 3 (Ev.slot none none))
    have hp : (run c boot (es ++ List.replicate 3 (Ev.slot none none))).pending = [] := by
      rw [run_append]
      generalize run c boot es = s at hf
      have h1 := pending_good c s hf.on
      have h2 := pending_good c (slot c none none s) h1.2
      have h3 := pending_good c (slot c none none (slot c none none s)) h2.2
      have h0 := pending_le s
      have : run c s (List.replicate 3 (Ev.slot none none)) =
        slot c none none (slot c none none (slot c none none s)) := rfl
      rw [this]
      apply List.eq_nil_of_length_eq_zero
      omega
    unfold Accounted at ha3
    rw [hf3.lost, hp] at ha3
    simpa using ha3

/-! ### Bus-off -/

/-- Nothing changes on the bus once the node is bus-off. -/
theorem off_step (c : Mcr) (h : c.abom = false) (s : St) (e : Ev) (ho : s.off = true) :
    (step c s e).off = true ∧ (step c s e).bus = s.bus := by
  rcases e with ⟨g, m⟩ | ⟨rival, fault⟩ | _
  · simp only [step]
    rcases send_cases g m s with ⟨hb, hs⟩ | ⟨-, -, hs⟩ | hs <;> rw [hs]
    · exact ⟨ho, rfl⟩
    · exact ⟨ho, rfl⟩
    · exact ⟨ho, rfl⟩
  · simp [step, slot, ho]
  · simp [step, h, ho]

/-- **C115 is false: silence.** Once bus-off, the VCU never sends another frame, whatever happens and however
long the bus is quiet (until it is reset): automatic recovery is switched off and nothing restarts the
peripheral. -/
theorem C115_silent_for_ever (es : List Ev) : ∀ s : St, s.off = true →
    (run shipped s es).off = true ∧ (run shipped s es).bus = s.bus := by
  induction es with
  | nil => intro s h; exact ⟨h, rfl⟩
  | cons e es ih =>
    intro s h
    obtain ⟨h1, h2⟩ := off_step shipped rfl s e h
    rw [run_cons]
    obtain ⟨h3, h4⟩ := ih _ h1
    exact ⟨h3, h4.trans h2⟩

/-- A burst of transmission errors, one for each of some frames. -/
def burst (fs : List Frame) : List Ev := fs.flatMap fun f => [.send f 0, .slot none (some .other)]

theorem burst_cons (f : Frame) (fs : List Frame) :
    burst (f :: fs) = .send f 0 :: .slot none (some .other) :: burst fs := rfl

theorem burst_off (fs : List Frame) : ∀ (n : Nat) (s : St), 256 ≤ 8 * (n + fs.length) →
    (s.off = true ∨ ((∀ m, s.box m = none) ∧ s.off = false ∧ s.tec = 8 * n ∧ n < 32)) → s.bus = [] →
    (run shipped s (burst fs)).off = true ∧ (run shipped s (burst fs)).bus = [] := by
  induction fs with
  | nil =>
    intro n s hn h hb
    rcases h with h | ⟨-, -, -, h⟩
    · exact ⟨h, hb⟩
    · simp at hn; omega
  | cons f fs ih =>
    intro n s hn h hb
    rw [burst_cons]
    rcases h with h | ⟨h1, h2, h3, h4⟩
    · have := C115_silent_for_ever (Ev.send f 0 :: Ev.slot none (some .other) :: burst fs) s h
      exact ⟨this.1, this.2.trans hb⟩
    · rw [run_cons, run_cons]
      have hs : step shipped s (.send f 0) = filled s 0 f := by
        simp [step, send, St.room, h1, filled]
      have hbox : (filled s 0 f).box = upd (fun _ => none) 0 (some ⟨s.reqs, f⟩) := by
        simp only [filled]; congr; funext m; exact h1 m
      have hp : pick shipped (filled s 0 f) = some (0, ⟨s.reqs, f⟩) := pick_single shipped 0 _ _ hbox
      rw [hs]
      have hq : step shipped (filled s 0 f) (.slot none (some .other)) =
        slot shipped none (some .other) (filled s 0 f) := rfl
      rw [hq, slot_bad (filled s 0 f) 0 _ .other h2 hp]
      apply ih (n + 1)
      · simp only [List.length_cons] at hn; omega
      · by_cases hlim : n + 1 < 32
        · right
          refine ⟨?_, ?_, ?_, hlim⟩
          · intro m
            simp only [upd, filled]
            split_ifs
            · rfl
            · exact h1 m
          · simp only [filled, penalty, h3]; simp; omega
          · simp only [filled, penalty, h3]; omega
        · left
          simp only [filled, penalty, h3]; simp; omega
      · exact hb

/-- **C115 is false.** Thirty-two disturbed transmissions — of any frames, sent any time — are enough; after
them, and whatever happens later, no frame of the VCU appears on the bus. -/
theorem C115_burst_ends_communication (fs : List Frame) (hn : 32 ≤ fs.length) (es : List Ev) :
    (run shipped boot (burst fs ++ es)).bus = [] := by
  obtain ⟨h1, h2⟩ := burst_off fs 0 boot (by omega)
    (Or.inr ⟨fun _ => rfl, rfl, rfl, by decide⟩) rfl
  rw [run_append, (C115_silent_for_ever es _ h1).2, h2]

/-- What a bus-off peripheral can still hold: empty mailboxes and room in the queue. -/
def space (s : St) : Nat := (3 - s.pending.length) + (queueLen - s.queue.length)

theorem off_space (c : Mcr) (h : c.abom = false) (s : St) (e : Ev) (ho : s.off = true) :
    (step c s e).accepted.length + space (step c s e) = s.accepted.length + space s := by
  rcases e with ⟨g, m⟩ | ⟨rival, fault⟩ | _
  · simp only [step]
    rcases send_cases g m s with ⟨hb, hs⟩ | ⟨-, hl, hs⟩ | hs <;> rw [hs]
    · have h1 := (pending_fill s m ⟨s.reqs, g⟩ hb).length_eq
      have h2 : (filled s m g).pending = ({ s with box := upd s.box m (some ⟨s.reqs, g⟩) } : St).pending := rfl
      have h3 := pending_le (filled s m g)
      rw [h2] at h3
      simp only [space, h2, h1]
      rw [h1] at h3
      simp only [filled, List.length_append, List.length_cons, List.length_nil] at *
      omega
    · have h2 : ({ s with queue := s.queue ++ [g], accepted := s.accepted ++ [g] } : St).pending =
          s.pending := rfl
      simp only [space, h2, List.length_append, List.length_cons, List.length_nil] at *
      omega
  · simp [step, slot, ho]
  · simp [step, h, ho]

/-- At least the driver notices in the end: once bus-off, at most 67 more calls return OK (three mailboxes and
64 places in the queue), all others are refused. -/
theorem C115_then_refused (es : List Ev) : ∀ s : St, s.off = true →
    (run shipped s es).accepted.length ≤ s.accepted.length + 67 := by
  have key : ∀ s : St, s.off = true →
      (run shipped s es).accepted.length + space (run shipped s es) = s.accepted.length + space s := by
    induction es with
    | nil => intro s _; rfl
    | cons e es ih =>
      intro s h
      rw [run_cons, ih _ (off_step shipped rfl s e h).1, off_space shipped rfl s e h]
  intro s h
  have := key s h
  have h2 : space s ≤ 67 := by simp only [space, queueLen]; omega
  omega

/-- With automatic recovery the node would be back after the bus was quiet. -/
theorem C115_with_recovery (c : Mcr) (h : c.abom = true) (s : St) : (step c s .quiet).off = false := by
  cases ho : s.off <;> simp [step, h, ho]

/-- A VCU alone on its bus (nobody acknowledges) does not go bus-off. -/
theorem C115_alone_is_harmless (c : Mcr) (es : List Ev)
    (hn : ∀ e ∈ es, ∀ rival, e ≠ .slot rival (some .other)) :
    (run c boot es).off = false ∧ (run c boot es).tec ≤ 135 := by
  induction es using List.reverseRecOn with
  | nil => exact ⟨rfl, by simp [run, boot]⟩
  | append_singleton es e ih =>
    rw [run_concat]
    obtain ⟨h1, h2⟩ := ih (fun x hx => hn x (by simp [hx]))
    have he := hn e (by simp)
    generalize run c boot es = s at h1 h2
    have hg : ∀ m f, (giveUp c m f s).off = s.off ∧ (giveUp c m f s).tec = s.tec := by
      intro m f; unfold giveUp; split_ifs <;> exact ⟨rfl, rfl⟩
    rcases e with ⟨g, m⟩ | ⟨rival, fault⟩ | _
    · simp only [step]
      rcases send_cases g m s with ⟨hb, hs⟩ | ⟨-, hl, hs⟩ | hs <;> rw [hs]
      · exact ⟨h1, h2⟩
      · exact ⟨h1, h2⟩
      · exact ⟨h1, h2⟩
    · simp only [step]
      rcases slot_cases c rival fault s with hs | ⟨m, r, ho, hp, hs⟩
      · rw [hs]; exact ⟨h1, h2⟩
      · rcases hs with ⟨-, hs⟩ | ⟨-, -, hs⟩ | ⟨-, w, hw, hs⟩ <;> rw [hs]
        · rw [(hg m r.frame).1, (hg m r.frame).2]; exact ⟨h1, h2⟩
        · refine ⟨h1, ?_⟩
          dsimp only
          omega
        · cases w
          · have : penalty .noAck s.tec ≤ 135 := by
              simp only [penalty]; split_ifs <;> omega
            refine ⟨?_, this⟩
            simp; omega
          · exact absurd (by rw [hw]) (he rival)
    · simp only [step]
      split_ifs
      · exact ⟨rfl, by simp⟩
      · exact ⟨h1, h2⟩

/-- Number of slots with a fault. -/
def faults (es : List Ev) : Nat := es.countP isFault

/-- One event and the error counter while the node takes part in the traffic. -/
theorem tec_step (c : Mcr) (s : St) (e : Ev) (ho : s.off = false) :
    ((step c s e).tec ≤ s.tec ∧ (step c s e).bus = s.bus ∧ (step c s e).off = false) ∨
    ((step c s e).tec = s.tec - 1 ∧ (step c s e).bus.length = s.bus.length + 1 ∧ (step c s e).off = false) ∨
    (isFault e = true ∧ (step c s e).tec ≤ s.tec + 8 ∧ (step c s e).bus = s.bus ∧
      ((step c s e).tec ≤ 255 → (step c s e).off = false)) := by
  have hg : ∀ m f, (giveUp c m f s).bus = s.bus ∧ (giveUp c m f s).tec = s.tec ∧
      (giveUp c m f s).off = s.off := by
    intro m f; unfold giveUp; split_ifs <;> exact ⟨rfl, rfl, rfl⟩
  rcases e with ⟨g, m⟩ | ⟨rival, fault⟩ | _
  · left
    simp only [step]
    rcases send_cases g m s with ⟨hb, hs⟩ | ⟨-, hl, hs⟩ | hs <;> rw [hs] <;> simp [filled, ho]
  · simp only [step]
    rcases slot_cases c rival fault s with hs | ⟨m, r, -, hp, hs⟩
    · left; rw [hs]; exact ⟨Nat.le_refl _, rfl, ho⟩
    · rcases hs with ⟨-, hs⟩ | ⟨-, -, hs⟩ | ⟨-, w, hw, hs⟩
      · left; rw [hs, (hg m r.frame).1, (hg m r.frame).2.1, (hg m r.frame).2.2]
        exact ⟨Nat.le_refl _, rfl, ho⟩
      · right; left; rw [hs]; simp [ho]
      · right; right
        subst hw
        rw [hs]
        refine ⟨rfl, ?_, (hg m r.frame).1, ?_⟩
        · cases w <;> simp only [penalty]
          · split_ifs <;> omega
          · omega
        · intro h; simpa using h
  · left; simp [step, ho]

/-- **C115 with few errors** (what is missing: recovery once the limit has been passed, which never
happens). If in every stretch of the run eight times the disturbed slots do not exceed 255 plus the own
frames sent successfully in it — in particular whenever fewer than 32 slots of the whole run are
disturbed — the VCU keeps taking part in the traffic. -/
theorem C115_few_errors_partial (c : Mcr) (es : List Ev)
    (h : ∀ a b rest, es = a ++ b ++ rest →
      8 * faults b + (run c boot a).bus.length ≤ 255 + (run c boot (a ++ b)).bus.length) :
    (run c boot es).off = false := by
  have key : (run c boot es).off = false ∧ ∃ a b, es = a ++ b ∧
      (run c boot es).tec + (run c boot es).bus.length ≤ 8 * faults b + (run c boot a).bus.length := by
    induction es using List.reverseRecOn with
    | nil => exact ⟨rfl, [], [], rfl, by simp [run, boot]⟩
    | append_singleton es e ih =>
      have hpre : ∀ a b rest, es = a ++ b ++ rest →
          8 * faults b + (run c boot a).bus.length ≤ 255 + (run c boot (a ++ b)).bus.length := by
        intro a b rest hab
        exact h a b (rest ++ [e]) (by rw [hab]; simp)
      obtain ⟨h1, a, b, hab, h2⟩ := ih hpre
      have hb : faults (b ++ [e]) = faults b + (if isFault e then 1 else 0) := by
        simp [faults, List.countP_append, List.countP_cons]
      have hlim := h a (b ++ [e]) [] (by rw [hab]; simp)
      have habe : a ++ (b ++ [e]) = es ++ [e] := by rw [hab]; simp
      rw [habe, run_concat] at hlim
      rw [run_concat]
      rcases tec_step c (run c boot es) e h1 with ⟨h3, h4, h5⟩ | ⟨h3, h4, h5⟩ | ⟨h3, h4, h5, h6⟩
      · refine ⟨h5, a, b ++ [e], habe.symm, ?_⟩
        rw [h4, hb]; omega
      · refine ⟨h5, ?_⟩
        by_cases h0 : (run c boot es).tec = 0
        · refine ⟨es ++ [e], [], by simp, ?_⟩
          rw [run_concat, h3, h0]; simp
        · refine ⟨a, b ++ [e], habe.symm, ?_⟩
          rw [h4, hb, h3]; omega
      · rw [hb, h3] at hlim
        rw [h5] at hlim
        simp only [if_true] at hlim
        have hx : (step c (run c boot es) e).tec + (run c boot es).bus.length ≤
            8 * (faults b + 1) + (run c boot a).bus.length := by omega
        refine ⟨h6 (by omega), a, b ++ [e], habe.symm, ?_⟩
        rw [h5, hb, h3]
        simpa using hx
  exact key.1

/-! ### Order -/

/-- **C116 is false.** Three commands with the same identifier, all accepted: the second is still waiting
when the third is handed in and gets the lower mailbox. For every three such frames the bus shows the third
before the second, and the last command on the bus is not the last command given. -/
theorem C116_last_command_overtaken (f g h : Frame) (h1 : f.id = g.id) (h2 : g.id = h.id) :
    let s := run shipped boot [.send f 0, .send g 1, .slot none none, .send h 0, .slot none none,
      .slot none none]
    s.accepted = [f, g, h] ∧ s.bus = [f, h, g] := by
  simp [run, step, send, boot, St.room, upd, slot, pick, better, St.cand, first, outranked, shipped,
    shippedInit, Init.mcr, h1, h2]

/-- Pending identifiers do not decrease with the mailbox number. -/
def Sorted (s : St) : Prop :=
  ∀ i j r q, i < j → s.box i = some r → s.box j = some q → r.frame.id ≤ q.frame.id

theorem sorted_drop (s : St) (m : Fin 3) (h : Sorted s) : Sorted { s with box := upd s.box m none } := by
  intro i j r q hij hi hj
  rcases upd_some hi with h1 | h1
  · cases h1
  rcases upd_some hj with h2 | h2
  · cases h2
  exact h i j r q hij h1 h2

/-- In a sorted state the lowest pending mailbox goes first. -/
theorem pick_sorted (s : St) (h : Sorted s) (m : Fin 3) (r : Req) (hp : pick shipped s = some (m, r)) :
    s.pending = r.frame :: ({ s with box := upd s.box m none } : St).pending := by
  have h01 := h 0 1
  have h02 := h 0 2
  have h12 := h 1 2
  rcases e0 : s.box 0 with _ | a <;> rcases e1 : s.box 1 with _ | b <;> rcases e2 : s.box 2 with _ | d <;>
    simp only [e0, e1, e2] at h01 h02 h12 <;>
    simp only [pick, St.cand, e0, e1, e2, better, first, shipped, shippedInit, Init.mcr, Option.map_none,
      Option.map_some, Bool.false_eq_true, if_false] at hp
  · cases hp
  · cases hp
    simp [St.pending, e0, e1, e2, upd]
  · cases hp
    simp [St.pending, e0, e1, e2, upd]
  · have := h12 b d (by decide) rfl rfl
    have hn : ¬(d.frame.id < b.frame.id) := by omega
    simp [hn] at hp
    obtain ⟨rfl, rfl⟩ := hp
    simp [St.pending, e0, e1, e2, upd]
  · cases hp
    simp [St.pending, e0, e1, e2, upd]
  · have := h02 a d (by decide) rfl rfl
    have hn : ¬(d.frame.id < a.frame.id) := by omega
    simp [hn] at hp
    obtain ⟨rfl, rfl⟩ := hp
    simp [St.pending, e0, e1, e2, upd]
  · have := h01 a b (by decide) rfl rfl
    have hn : ¬(b.frame.id < a.frame.id) := by omega
    simp [hn] at hp
    obtain ⟨rfl, rfl⟩ := hp
    simp [St.pending, e0, e1, e2, upd]
  · have := h01 a b (by decide) rfl rfl
    have hn : ¬(b.frame.id < a.frame.id) := by omega
    have := h02 a d (by decide) rfl rfl
    have hn2 : ¬(d.frame.id < a.frame.id) := by omega
    simp [hn, hn2] at hp
    obtain ⟨rfl, rfl⟩ := hp
    simp [St.pending, e0, e1, e2, upd]

/-- A polite call appends its frame to the pending ones. -/
theorem pending_polite (s : St) (f : Frame) (m : Fin 3) (hb : s.box m = none) (hp : Polite s (.send f m)) :
    (filled s m f).pending = s.pending ++ [f] ∧ (Sorted s → Sorted (filled s m f)) := by
  constructor
  · rcases fin3 m with rfl | rfl | rfl
    · have h1 : s.box 1 = none := by
        rcases e : s.box 1 with _ | r
        · rfl
        · exact absurd (hp 1 r e).1 (by decide)
      have h2 : s.box 2 = none := by
        rcases e : s.box 2 with _ | r
        · rfl
        · exact absurd (hp 2 r e).1 (by decide)
      simp [St.pending, filled, upd, hb, h1, h2]
    · have h2 : s.box 2 = none := by
        rcases e : s.box 2 with _ | r
        · rfl
        · exact absurd (hp 2 r e).1 (by decide)
      simp [St.pending, filled, upd, hb, h2]
    · simp [St.pending, filled, upd, hb]
  · intro hs i j r q hij hi hj
    rcases upd_some hj with h2 | h2
    · cases h2
      by_cases him : i = m
      · subst him
        rcases upd_some hi with h1 | h1
        · cases h1; exact Nat.le_refl _
        · rw [hb] at h1; cases h1
      · have : s.box i = some r := by
          simp only [filled, upd, if_neg him] at hi; exact hi
        exact (hp i r this).2
    · rcases upd_some hi with h1 | h1
      · cases h1
        by_cases him : i = m
        · have := (hp j q h2).1
          rw [him] at hij
          exact absurd (Fin.lt_trans hij this) (by omega)
        · have h3 : s.box i = some ⟨s.reqs, f⟩ := by
            simp only [filled, upd, if_neg him] at hi; exact hi
          exact hs i j _ q hij h3 h2
      · exact hs i j r q hij h1 h2

theorem order_step (s : St) (e : Ev) (hp : Polite s e) (h : Sorted s)
    (hs : (s.bus ++ s.pending).Sublist s.accepted) :
    Sorted (step shipped s e) ∧
      ((step shipped s e).bus ++ (step shipped s e).pending).Sublist (step shipped s e).accepted := by
  rcases e with ⟨f, m⟩ | ⟨rival, fault⟩ | _
  · simp only [step]
    rcases send_cases f m s with ⟨hb, hc⟩ | ⟨-, hl, hc⟩ | hc <;> rw [hc]
    · obtain ⟨h1, h2⟩ := pending_polite s f m hb hp
      refine ⟨h2 h, ?_⟩
      dsimp only
      rw [h1]
      simp only [filled]
      rw [← List.append_assoc]
      exact hs.append (List.Sublist.refl _)
    · exact ⟨h, hs.trans (List.sublist_append_left _ _)⟩
    · exact ⟨h, hs⟩
  · simp only [step]
    rcases slot_cases shipped rival fault s with hc | ⟨m, r, -, hpk, hc⟩
    · rw [hc]; exact ⟨h, hs⟩
    · have hpend := pick_sorted s h m r hpk
      have hd := sorted_drop s m h
      have hlost : (s.bus ++ ({ s with box := upd s.box m none } : St).pending).Sublist s.accepted := by
        refine List.Sublist.trans ?_ hs
        rw [hpend]
        exact List.Sublist.append (List.Sublist.refl _) (List.sublist_cons_self _ _)
      rcases hc with ⟨-, hc⟩ | ⟨-, -, hc⟩ | ⟨-, w, hw, hc⟩ <;> rw [hc]
      · rw [giveUp_nart _ shipped_nart]; exact ⟨hd, hlost⟩
      · refine ⟨hd, ?_⟩
        have : ({ s with box := upd s.box m none, tec := s.tec - 1, bus := s.bus ++ [r.frame] } : St).pending =
          ({ s with box := upd s.box m none } : St).pending := rfl
        rw [this]
        dsimp only
        rw [hpend] at hs
        simpa using hs
      · rw [giveUp_nart _ shipped_nart]; exact ⟨hd, hlost⟩
  · simp only [step]
    split_ifs
    · exact ⟨h, hs⟩
    · exact ⟨h, hs⟩

theorem order_run (es : List Ev) : ∀ s, AllPolite shipped s es → Sorted s →
    (s.bus ++ s.pending).Sublist s.accepted →
    ((run shipped s es).bus ++ (run shipped s es).pending).Sublist (run shipped s es).accepted := by
  induction es with
  | nil => intro s _ _ h; exact h
  | cons e es ih =>
    intro s hp h hs
    obtain ⟨h1, h2⟩ := order_step s e hp.1 h hs
    exact ih _ hp.2 h1 h2

/-- **C116 for calls that do not pile up** (what is missing: a call while an earlier frame waits in a mailbox
of higher number or with a higher identifier). If at each call whatever is still pending sits in lower
mailboxes and has no higher identifier — for instance when nothing is pending — the frames appear on the
bus in the order of the calls, whatever other nodes and errors do (they can only remove frames). -/
theorem C116_spaced_calls_partial (es : List Ev) (hp : AllPolite shipped boot es) :
    (run shipped boot es).bus.Sublist (run shipped boot es).accepted := by
  have := order_run es boot hp (fun i j r q _ h _ => by simp [boot] at h) (List.Sublist.refl _)
  exact (List.sublist_append_left _ _).trans this

/-- Two torque commands and a disable frame, all with the inverter's command identifier. -/
def demo (k : UInt8) : Frame := ⟨0x0C0, #v[k, 0, 0, 0, 1, 1, 0, 0]⟩

/-- Concrete: polite calls with a lost one in between; and the overtaking of C116. -/
example : (run shipped boot [.send (demo 1) 0, .send (demo 2) 1, .slot (some 5) none, .slot none none,
      .send (demo 3) 0, .slot none none]).bus = [demo 2, demo 3] ∧
    (run shipped boot [.send (demo 1) 0, .send (demo 2) 1, .slot none none, .send (demo 3) 0,
      .slot none none, .slot none none]).bus = [demo 1, demo 3, demo 2] ∧
    (run shipped boot (burst (List.replicate 32 (demo 1)))).off = true ∧
    (run shipped boot (burst (List.replicate 31 (demo 1)))).off = false ∧
    (run shipped boot (burst (List.replicate 32 (demo 1)) ++ [.send (demo 1) 0, .send (demo 1) 1,
      .send (demo 1) 2] ++ List.replicate 70 (.send (demo 1) 0))).accepted.length = 32 + 3 + 64 := by
  decide +kernel

end Verif.CanBus
