import Verif.Props.Ready
import Verif.Spec.Wake

set_option autoImplicit false

/-!
# C111: a woken task can run, a sleeping one cannot
-/

namespace Verif.Ready

open Verif.KList

/-! ## Which list a task is in -/

theorem remove_container {h h' : Heap LId Nat} {x k : Nat} (e : remove h x = .ok (k, h')) :
    h'.container = Function.update h.container x none := by
  unfold remove at e
  split at e
  · cases e
  · simp only at e
    obtain ⟨_, rfl⟩ := Prod.mk.inj (Except.ok.inj e)
    simp only
    split_ifs <;> rfl

theorem insert_container {h h' : Heap LId Nat} {f x : Nat} {l : LId} (e : KList.insert f h l x = some h') :
    h'.container = Function.update h.container x (some l) := by
  unfold KList.insert at e
  simp only at e
  split at e
  · cases e
  · rw [← Option.some.inj e]

/-- Everybody who can run still can, and nobody woken is forgotten. -/
structure Up (s s' : St) : Prop where
  keep : ∀ x, CanRun s x → CanRun s' x
  pending : s'.pending = s.pending

theorem Up.refl (s : St) : Up s s := ⟨fun _ h => h, rfl⟩

theorem Up.trans {a b c : St} (h : Up a b) (h' : Up b c) : Up a c :=
  ⟨fun x hx => h'.keep x (h.keep x hx), h'.pending.trans h.pending⟩

/-- The lists did not change, except for `t`, which is ready now. -/
theorem up_of {s s' : St} {t : Nat} (h : ∀ x, x ≠ t → s'.heap.container x = s.heap.container x)
    (ht : CanRun s' t) (hp : s'.pending = s.pending) : Up s s' := by
  refine ⟨fun x hx => ?_, hp⟩
  by_cases e : x = t
  · rw [e]; exact ht
  · unfold CanRun; rw [h x e]; exact hx

theorem wake_ok {s s' : St} {t : Nat} (e : wake s t = .ok s') :
    (∀ x, x ≠ t → s'.heap.container x = s.heap.container x) ∧ CanRun s' t ∧ s'.pending = s.pending ∧
      s'.susp = s.susp := by
  unfold wake at e
  split at e
  · cases e
  · rename_i h hr
    rw [← Except.ok.inj e]
    refine ⟨fun x hx => ?_, ⟨_, by rw [addReady_container]; exact Function.update_self ..⟩, rfl, rfl⟩
    rw [addReady_container, Function.update_of_ne hx]
    simp only [remove_container hr, Function.update_of_ne hx]

theorem takeReady_ok {s s' : St} {t q : Nat} (e : takeReady s t q = .ok s') :
    s'.heap.container = Function.update s.heap.container t none ∧ s'.pending = s.pending ∧
      s'.current = s.current ∧ s'.susp = s.susp ∧ s'.prio = s.prio := by
  unfold takeReady at e
  split at e
  · cases e
  · rename_i h hr
    rw [← Except.ok.inj e]
    exact ⟨remove_container hr, rfl, rfl, rfl, rfl⟩

theorem wakeAll_ok : ∀ (ts : List Nat) {s s' : St} {r r' : Bool} (_ : wakeAll s r ts = .ok (r', s')),
    Up s s' ∧ s'.susp = s.susp ∧ (∀ x, x ∉ ts → s'.heap.container x = s.heap.container x) ∧
      (∀ x ∈ ts, (∃ b, s.heap.container x = some (.delayed b)) → CanRun s' x) ∧
      (∀ x, CanRun s' x ∨ s'.heap.container x = s.heap.container x)
  | [], s, s', r, r', e => by
    rw [wakeAll] at e
    obtain ⟨_, rfl⟩ := Prod.mk.inj (Except.ok.inj e)
    exact ⟨.refl s, rfl, fun _ _ => rfl, fun x hx => (by cases hx), fun _ => .inr rfl⟩
  | t :: ts, s, s', r, r', e => by
    rw [wakeAll] at e
    have skip : ∀ {r}, wakeAll s r ts = .ok (r', s') → (∀ b, s.heap.container t ≠ some (.delayed b)) →
        Up s s' ∧ s'.susp = s.susp ∧ (∀ x, x ∉ t :: ts → s'.heap.container x = s.heap.container x) ∧
        (∀ x ∈ t :: ts, (∃ b, s.heap.container x = some (.delayed b)) → CanRun s' x) ∧
        (∀ x, CanRun s' x ∨ s'.heap.container x = s.heap.container x) := by
      intro r h hn
      obtain ⟨h1, h2, h3, h4, h5⟩ := wakeAll_ok ts h
      refine ⟨h1, h2, fun x hx => h3 x (fun hm => hx (List.mem_cons_of_mem _ hm)), ?_, h5⟩
      rintro x hx ⟨b, hb⟩
      rcases List.mem_cons.mp hx with rfl | hx
      · exact absurd hb (hn b)
      · exact h4 x hx ⟨b, hb⟩
    split at e
    · rename_i b hc
      split at e
      · cases e
      · rename_i s1 hw
        obtain ⟨w1, w2, w3, w4⟩ := wake_ok hw
        obtain ⟨h1, h2, h3, h4, h5⟩ := wakeAll_ok ts e
        refine ⟨(up_of w1 w2 w3).trans h1, h2.trans w4, ?_, ?_, ?_⟩
        · intro x hx
          rw [List.mem_cons, not_or] at hx
          rw [h3 x hx.2, w1 x hx.1]
        · rintro x hx ⟨b', hb⟩
          by_cases hxt : x = t
          · rw [hxt]; exact h1.keep t w2
          · exact h4 x ((List.mem_cons.mp hx).resolve_left hxt) ⟨b', by rw [w1 x hxt]; exact hb⟩
        · intro x
          by_cases hxt : x = t
          · rw [hxt]; exact .inl (h1.keep t w2)
          · rcases h5 x with h | h
            · exact .inl h
            · exact .inr (by rw [h, w1 x hxt])
    · rename_i hn
      exact skip e hn

theorem tickBody_ok {ts : List Nat} {s s' : St} {r : Bool} (e : tickBody s ts = .ok (r, s')) :
    Up s s' ∧ s'.susp = s.susp ∧ (∀ x, x ∉ ts → s'.heap.container x = s.heap.container x) ∧
      (∀ x ∈ ts, (∃ b, s.heap.container x = some (.delayed b)) → CanRun s' x) ∧
      (∀ x, CanRun s' x ∨ s'.heap.container x = s.heap.container x) := by
  unfold tickBody at e
  split at e
  · cases e
  · rename_i r1 s1 hw
    simp only at e
    obtain ⟨_, rfl⟩ := Prod.mk.inj (Except.ok.inj e)
    exact wakeAll_ok ts hw

theorem makeUp_ok : ∀ (tss : List (List Nat)) {s s' : St} (_ : makeUp s tss = .ok s'),
    Up s s' ∧ s'.susp = s.susp ∧
      (∀ x, (∀ ts ∈ tss, x ∉ ts) → s'.heap.container x = s.heap.container x) ∧
      (∀ ts ∈ tss, ∀ x ∈ ts, (∃ b, s.heap.container x = some (.delayed b)) → CanRun s' x) ∧
      (∀ x, CanRun s' x ∨ s'.heap.container x = s.heap.container x)
  | [], s, s', e => by
    rw [makeUp] at e
    cases e
    exact ⟨.refl s, rfl, fun _ _ => rfl, fun _ h => (by cases h), fun _ => .inr rfl⟩
  | ts :: tss, s, s', e => by
    rw [makeUp] at e
    split at e
    · cases e
    · rename_i r s1 ht
      obtain ⟨a1, a2, a3, a4, a5⟩ := tickBody_ok ht
      obtain ⟨b1, b2, b3, b4, b5⟩ := makeUp_ok tss e
      have b1' : Up s1 s' := ⟨b1.keep, b1.pending⟩
      refine ⟨a1.trans b1', b2.trans a2, ?_, ?_, ?_⟩
      · intro x hx
        rw [b3 x (fun ts h => hx ts (List.mem_cons_of_mem _ h))]
        exact a3 x (hx ts (by simp))
      · rintro ts' hts x hx hb
        rcases List.mem_cons.mp hts with rfl | hts
        · exact b1.keep x (a4 x hx hb)
        · rcases a5 x with h | h
          · exact b1.keep x h
          · obtain ⟨b, hb⟩ := hb
            exact b4 ts' hts x hx ⟨b, by simp only; rw [h]; exact hb⟩
      · intro x
        rcases b5 x with h | h
        · exact .inl h
        · rcases a5 x with h' | h'
          · exact .inl (b1.keep x h')
          · exact .inr (by rw [h]; exact h')

theorem drain_ok : ∀ (ts : List Nat) {s s' : St} (_ : drain s ts = .ok s'),
    Up s s' ∧ s'.susp = s.susp ∧ (∀ x, x ∉ ts → s'.heap.container x = s.heap.container x) ∧
      ∀ x ∈ ts, CanRun s' x
  | [], s, s', e => by
    rw [drain] at e; cases e
    exact ⟨.refl s, rfl, fun _ _ => rfl, fun x hx => (by cases hx)⟩
  | t :: ts, s, s', e => by
    rw [drain] at e
    split at e
    · cases e
    · rename_i s1 hw
      obtain ⟨w1, w2, w3, w4⟩ := wake_ok hw
      obtain ⟨h1, h2, h3, h4⟩ := drain_ok ts e
      have h1' : Up s1 s' := ⟨h1.keep, h1.pending⟩
      refine ⟨(up_of w1 w2 w3).trans h1', h2.trans w4, ?_, ?_⟩
      · intro x hx
        rw [List.mem_cons, not_or] at hx
        rw [h3 x hx.2]
        exact w1 x hx.1
      · intro x hx
        rcases List.mem_cons.mp hx with rfl | hx
        · exact h1.keep x w2
        · exact h4 x hx

theorem event_ok {s s' : St} {t : Nat} {w : Bool} (e : event s t = .ok (w, s')) :
    s'.susp = s.susp ∧ (∀ x, x ≠ t → s'.heap.container x = s.heap.container x) ∧
      (∀ x, CanRun s x → CanRun s' x) ∧
      (s.susp = 0 → CanRun s' t ∧ s'.pending = s.pending) ∧
      (s.susp ≠ 0 → s'.pending = s.pending ++ [t] ∧ s'.heap.container t = s.heap.container t) := by
  unfold event at e
  split at e
  · cases e
  · rename_i s1 hw
    have key : s1.susp = s.susp ∧ (∀ x, x ≠ t → s1.heap.container x = s.heap.container x) ∧
      (∀ x, CanRun s x → CanRun s1 x) ∧
      (s.susp = 0 → CanRun s1 t ∧ s1.pending = s.pending) ∧
      (s.susp ≠ 0 → s1.pending = s.pending ++ [t] ∧ s1.heap.container t = s.heap.container t) := by
      by_cases h0 : s.susp = 0
      · rw [if_pos h0] at hw
        obtain ⟨w1, w2, w3, w4⟩ := wake_ok hw
        exact ⟨w4, w1, (up_of w1 w2 w3).keep, fun _ => ⟨w2, w3⟩, fun h => absurd h0 h⟩
      · rw [if_neg h0] at hw
        cases hw
        exact ⟨rfl, fun _ _ => rfl, fun _ h => h, fun h => absurd h h0, fun _ => ⟨rfl, rfl⟩⟩
    split_ifs at e <;> (obtain ⟨_, rfl⟩ := Prod.mk.inj (Except.ok.inj e); exact key)

theorem addReady_up {s s' : St} {t : Nat} (h : ∀ x, x ≠ t → s'.heap.container x = s.heap.container x)
    (hp : s'.pending = s.pending) : Up s (addReady s' t) := by
  refine up_of (t := t) (fun x hx => ?_) ⟨_, by rw [addReady_container]; exact Function.update_self ..⟩ hp
  rw [addReady_container, Function.update_of_ne hx, h x hx]

/-- Moving a task between ready lists. -/
theorem moveReady_ok {s s' : St} {t p : Nat} (e : moveReady s t p = .ok s') :
    Up s s' ∧ s'.susp = s.susp ∧ s'.current = s.current ∧ CanRun s' t ∧
      ∀ x, x ≠ t → s'.heap.container x = s.heap.container x := by
  unfold moveReady at e
  split at e
  · cases e
  · rename_i s1 ht
    obtain ⟨h1, h2, h3, h4, h5⟩ := takeReady_ok ht
    rw [← Except.ok.inj e]
    have hx : ∀ x, x ≠ t → s1.heap.container x = s.heap.container x := fun x hx => by
      rw [h1, Function.update_of_ne hx]
    refine ⟨addReady_up (s' := { s1 with prio := _ }) hx h2, h4, h3,
      ⟨_, by rw [addReady_container]; exact Function.update_self ..⟩, fun x hxt => ?_⟩
    rw [addReady_container, Function.update_of_ne hxt]
    exact hx x hxt

/-- What one event does to who can run: `t` is any task. -/
structure Moves (s s' : St) (t : Nat) (e : Ev) : Prop where
  /-- only the running task stops being able to run -/
  keep : CanRun s t → ¬ (Sleeps s t e ∨ Ends s t e) → CanRun s' t
  /-- a woken task is not forgotten -/
  keepPend : t ∈ s.pending → t ∈ s'.pending ∨ CanRun s' t
  /-- waking -/
  wakes : isBlocked s t = true → Wakes s t e → t ∈ s'.pending ∨ CanRun s' t
  /-- nobody can run without reason -/
  quiet : ¬ CanRun s t → t ∉ s.pending → ¬ Names t e → ¬ CanRun s' t ∧ t ∉ s'.pending
  /-- going to sleep -/
  sleeps : CanRun s t → t ∉ s.pending → t ≠ idle → isReady s t = true → Sleeps s t e →
    ¬ CanRun s' t ∧ t ∉ s'.pending

theorem blocked_not_run {s : St} {t : Nat} (h : isBlocked s t = true) : ¬ CanRun s t := by
  obtain ⟨_, l, hl, ho⟩ := blocked_spec h
  rintro ⟨p, hp⟩
  rw [hl] at hp
  exact ho.ready p (Option.some.inj hp)

/-- An event that changes nothing relevant. -/
theorem moves_same {s s' : St} {t : Nat} {e : Ev} (hc : s'.heap.container t = s.heap.container t)
    (hp : s'.pending = s.pending) (hw : isBlocked s t = true → ¬ Wakes s t e)
    (hs : isReady s t = true → t ≠ idle → ¬ Sleeps s t e) : Moves s s' t e := by
  have hr : CanRun s' t ↔ CanRun s t := by unfold CanRun; rw [hc]
  refine ⟨fun h _ => hr.mpr h, fun h => .inl (by rw [hp]; exact h), fun h h' => absurd h' (hw h), ?_, ?_⟩
  · intro h h' _
    exact ⟨fun h2 => h (hr.mp h2), by rw [hp]; exact h'⟩
  · intro _ _ hi hrd hsl
    exact absurd hsl (hs hrd hi)

theorem canRun_congr {s s' : St} {t : Nat} (h : s'.heap.container t = s.heap.container t) :
    CanRun s' t ↔ CanRun s t := by unfold CanRun; rw [h]

theorem delete_ok {s s' : St} (hs : delete s = .ok s') :
    s'.pending = s.pending ∧ (∀ x, x ≠ s.current → s'.heap.container x = s.heap.container x) ∧
      s'.heap.container s.current = some .ended ∧ s'.current = s.current ∧ s'.prio = s.prio ∧ s'.base = s.base ∧
      s'.pend = true ∧ s'.susp = s.susp := by
  unfold delete at hs
  simp only at hs
  split at hs
  · cases hs
  · rename_i k h hr
    have hc := remove_container hr
    split_ifs at hs
    all_goals
      cases hs
      refine ⟨rfl, fun x hx => ?_, ?_, rfl, rfl, rfl, rfl, rfl⟩
      · show (insertEnd h .ended s.current).container x = _
        simp only [insertEnd, Function.update_of_ne hx, hc]
      · show (insertEnd h .ended s.current).container s.current = _
        simp only [insertEnd, Function.update_self]

theorem reap_ok {g : Prop} {s s' : St} {c : Lists} (I : Inv g s c) (hs : reap s = .ok s') :
    s' = s ∨ ∃ x, s'.pending = s.pending ∧ s.heap.container x = some .ended ∧
      (∀ y, y ≠ x → s'.heap.container y = s.heap.container y) ∧ s'.heap.container x = none ∧
      s'.current = s.current ∧ s'.prio = s.prio ∧ s'.base = s.base ∧ s'.pend = s.pend ∧ s'.susp = s.susp ∧
      s'.cleanup = s.cleanup - 1 := by
  unfold reap at hs
  split_ifs at hs with h0
  · cases hs; exact .inl rfl
  · right
    split at hs
    · cases hs
    · rename_i x hx
      split at hs
      · cases hs
      · rename_i k h hr
        cases hs
        have hc := remove_container hr
        refine ⟨x, rfl, ?_, fun y hy => ?_, ?_, rfl, rfl, rfl, rfl, rfl, rfl⟩
        · rcases ha : (c .ended).all with _ | ⟨y, b⟩
          · exact absurd (by rw [I.clean, ha]; rfl) h0
          · rw [headEntry_world I.core.world ha] at hx
            cases hx
            exact ((I.core.world .ended).mem x).mpr (by rw [ha]; simp)
        · show h.container y = _
          rw [hc, Function.update_of_ne hy]
        · show h.container x = _
          rw [hc, Function.update_self]

theorem step_moves {s s' : St} {c : Lists} (I : Inv False s c) (t : Nat) (e : Ev) (hs : step s e = .ok s') :
    Moves s s' t e := by
  cases e with
  | delete =>
    have nsl : ¬ Sleeps s t .delete := fun h => by obtain ⟨⟨w, hw⟩, _⟩ := h; cases hw
    simp only [step] at hs
    split_ifs at hs with h
    · obtain ⟨k1, k2, k3, _⟩ := delete_ok hs
      by_cases htc : t = s.current
      · subst htc
        have k4 : ¬ CanRun s' s.current := by rintro ⟨p, hp⟩; rw [k3] at hp; cases hp
        exact ⟨fun _ hn => absurd (.inr ⟨rfl, rfl⟩) hn, fun hp => .inl (by rw [k1]; exact hp),
          fun _ h => absurd h id, fun _ hp _ => ⟨k4, by rw [k1]; exact hp⟩, fun _ _ _ _ h => absurd h nsl⟩
      · exact moves_same (k2 t htc) k1 (fun _ h => h) (fun _ _ => nsl)
    · cases hs; exact moves_same rfl rfl (fun _ h => h) (fun _ _ => nsl)
  | reap =>
    have nsl : ¬ Sleeps s t .reap := fun h => by obtain ⟨⟨w, hw⟩, _⟩ := h; cases hw
    simp only [step] at hs
    split_ifs at hs with h
    · rcases reap_ok I hs with rfl | ⟨x, k1, k2, k3, k4, _⟩
      · exact moves_same rfl rfl (fun _ h => h) (fun _ _ => nsl)
      · by_cases htx : t = x
        · subst htx
          have k5 : ¬ CanRun s' t := by rintro ⟨p, hp⟩; rw [k4] at hp; cases hp
          have k6 : ¬ CanRun s t := by rintro ⟨p, hp⟩; rw [k2] at hp; cases hp
          exact ⟨fun h _ => absurd h k6, fun hp => .inl (by rw [k1]; exact hp),
            fun _ h => absurd h id, fun _ hp _ => ⟨k5, by rw [k1]; exact hp⟩, fun _ _ _ _ h => absurd h nsl⟩
        · exact moves_same (k3 t htx) k1 (fun _ h => h) (fun _ _ => nsl)
    · cases hs; exact moves_same rfl rfl (fun _ h => h) (fun _ _ => nsl)
  | create u p =>
    have nsl : ¬ Sleeps s t (.create u p) := fun h => by obtain ⟨⟨w, hw⟩, _⟩ := h; cases hw
    simp only [step] at hs
    split_ifs at hs with hn
    · cases hs
      have hp : (create s u p).pending = s.pending := rfl
      have hc : (create s u p).heap.container = Function.update s.heap.container u
          (some (.ready (if maxPriorities ≤ p then maxPriorities - 1 else p))) := by
        unfold create
        simp only [addReady_container, Function.update_self]
      by_cases htu : t = u
      · subst htu
        have hr : CanRun (create s t p) t := ⟨_, by rw [hc]; exact Function.update_self ..⟩
        exact ⟨fun _ _ => hr, fun _ => .inr hr, fun _ _ => .inr hr, fun _ _ h => absurd rfl h,
          fun _ _ _ _ h => absurd h nsl⟩
      · exact moves_same (by rw [hc, Function.update_of_ne htu]) hp (fun _ h => h) (fun _ _ => nsl)
    · cases hs
      exact moves_same rfl rfl (fun _ h => h) (fun _ _ => nsl)
  | block w =>
    simp only [step] at hs
    split_ifs at hs with h
    · -- the running task leaves the ready lists
      have key : s'.pending = s.pending ∧ (∀ x, x ≠ s.current → s'.heap.container x = s.heap.container x) ∧
          ¬ CanRun s' s.current := by
        unfold block at hs
        split at hs
        · cases hs
        · rename_i s1 ht
          obtain ⟨h1, h2, h3, h4, h5⟩ := takeReady_ok ht
          rw [h3] at hs
          cases w with
          | forever =>
            cases hs
            refine ⟨h2, fun x hx => ?_, ?_⟩
            · show (insertEnd s1.heap .suspended s.current).container x = _
              simp only [insertEnd, Function.update_of_ne hx, h1]
            · rintro ⟨p, hp⟩
              have : (insertEnd s1.heap LId.suspended s.current).container s.current = some (.ready p) := hp
              simp [insertEnd] at this
          | «until» b v =>
            simp only at hs
            split at hs
            · cases hs
            · rename_i h' hi
              cases hs
              have hc := insert_container hi
              refine ⟨h2, fun x hx => ?_, ?_⟩
              · show h'.container x = _
                rw [hc, Function.update_of_ne hx]
                show s1.heap.container x = _
                rw [h1, Function.update_of_ne hx]
              · rintro ⟨p, hp⟩
                have : h'.container s.current = some (.ready p) := hp
                rw [hc] at this; simp at this
      obtain ⟨k1, k2, k3⟩ := key
      by_cases htc : t = s.current
      · subst htc
        refine ⟨fun _ hn => absurd (.inl ⟨⟨w, rfl⟩, rfl⟩) hn, fun hp => .inl (by rw [k1]; exact hp),
          fun _ h => absurd h id, fun _ hp _ => ⟨k3, by rw [k1]; exact hp⟩,
          fun _ hp _ _ _ => ⟨k3, by rw [k1]; exact hp⟩⟩
      · exact moves_same (k2 t htc) k1 (fun _ h => h) (fun _ _ h => htc h.2.symm)
    · cases hs
      refine moves_same rfl rfl (fun _ h => h) (fun hr hi hsl => h ?_)
      rw [hsl.2]
      exact ⟨hr, hi⟩
  | tick ts =>
    have nsl : ¬ Sleeps s t (.tick ts) := fun h => by obtain ⟨⟨w, hw⟩, _⟩ := h; cases hw
    simp only [step] at hs
    split_ifs at hs with h0
    · split at hs
      · cases hs
      · rename_i r s1 ht
        cases hs
        obtain ⟨a1, a2, a3, a4, a5⟩ := tickBody_ok ht
        refine ⟨fun h _ => a1.keep t h, fun h => .inl (by simp only; rw [a1.pending]; exact h), ?_, ?_,
          fun _ _ _ _ h => absurd h nsl⟩
        · rintro _ ⟨h1, h2, _⟩
          exact .inr (a4 t h1 h2)
        · intro h1 h2 h3
          exact ⟨fun h => h1 ((canRun_congr (a3 t h3)).mp h), by simp only; rw [a1.pending]; exact h2⟩
    · cases hs
      exact moves_same rfl rfl (fun _ h => h0 h.2.2) (fun _ _ => nsl)
  | event u asks =>
    have nsl : ¬ Sleeps s t (.event u asks) := fun h => by obtain ⟨⟨w, hw⟩, _⟩ := h; cases hw
    simp only [step] at hs
    split_ifs at hs with hb
    · split at hs
      · cases hs
      · rename_i wk s1 hev
        cases hs
        obtain ⟨a1, a2, a3, a4, a5⟩ := event_ok hev
        have hpend : t ∈ s.pending → t ∈ s1.pending := by
          intro h
          by_cases h0 : s.susp = 0
          · rw [(a4 h0).2]; exact h
          · rw [(a5 h0).1]; exact List.mem_append_left _ h
        refine ⟨fun h _ => a3 t h, fun h => .inl (hpend h), ?_, ?_, fun _ _ _ _ h => absurd h nsl⟩
        · intro _ h
          have h : u = t := h
          subst h
          by_cases h0 : s.susp = 0
          · exact .inr (a4 h0).1
          · exact .inl (by simp only; rw [(a5 h0).1]; simp)
        · intro h1 h2 h3
          have htu : t ≠ u := fun h => h3 h.symm
          refine ⟨fun h => h1 ((canRun_congr (a2 t htu)).mp h), ?_⟩
          simp only
          by_cases h0 : s.susp = 0
          · rw [(a4 h0).2]; exact h2
          · rw [(a5 h0).1]; simp [h2, htu]
    · cases hs
      refine moves_same rfl rfl (fun h h' => ?_) (fun _ _ => nsl)
      have h' : u = t := h'
      rw [h'] at hb
      exact hb h
  | notify u =>
    have nsl : ¬ Sleeps s t (.notify u) := fun h => by obtain ⟨⟨w, hw⟩, _⟩ := h; cases hw
    simp only [step] at hs
    split_ifs at hs with hb
    · split at hs
      · cases hs
      · rename_i s1 hev
        cases hs
        obtain ⟨w1, w2, w3, w4⟩ := wake_ok hev
        have hup := up_of w1 w2 w3
        refine ⟨fun h _ => hup.keep t h, fun h => .inl (by simp only; rw [w3]; exact h), ?_, ?_,
          fun _ _ _ _ h => absurd h nsl⟩
        · intro _ h
          have h : u = t := h
          rw [← h]
          exact .inr w2
        · intro h1 h2 h3
          have htu : t ≠ u := fun h => h3 h.symm
          exact ⟨fun h => h1 ((canRun_congr (w1 t htu)).mp h), by simp only; rw [w3]; exact h2⟩
    · cases hs
      refine moves_same rfl rfl (fun h h' => ?_) (fun _ _ => nsl)
      have h' : u = t := h'
      rw [h'] at hb
      exact hb h
  | suspendAll =>
    cases hs
    exact moves_same rfl rfl (fun _ h => h) (fun _ _ h => by obtain ⟨⟨w, hw⟩, _⟩ := h; cases hw)
  | resumeAll tss =>
    have nsl : ¬ Sleeps s t (.resumeAll tss) := fun h => by obtain ⟨⟨w, hw⟩, _⟩ := h; cases hw
    simp only [step] at hs
    split_ifs at hs with h0
    · cases hs
      exact moves_same rfl rfl (fun _ h => by have := h.1; omega) (fun _ _ => nsl)
    · unfold resumeAll at hs
      simp only at hs
      split_ifs at hs with h1
      · cases hs
        exact moves_same rfl rfl (fun _ h => by have := h.1; omega) (fun _ _ => nsl)
      · split at hs
        · cases hs
        · rename_i s1 hd
          obtain ⟨d1, d2, d3, d4⟩ := drain_ok _ hd
          split at hs
          · cases hs
          · rename_i s2 hm
            cases hs
            obtain ⟨m1, m2, m3, m4, m5⟩ := makeUp_ok _ hm
            have hpe : s2.pending = [] := m1.pending.trans d1.pending
            refine ⟨fun h _ => m1.keep t (d1.keep t h), fun h => .inr (m1.keep t (d4 t h)), ?_, ?_,
              fun _ _ _ _ h => absurd h nsl⟩
            · rintro hb ⟨_, h2, ts, hts, hx⟩
              refine .inr (m4 ts hts t hx ?_)
              have := blocked_spec hb
              obtain ⟨b, hb'⟩ := h2
              exact ⟨b, by rw [d3 t this.1]; exact hb'⟩
            · intro g1 g2 g3
              have g3' : ∀ ts ∈ tss, t ∉ ts := fun ts hts hx => g3 ⟨ts, hts, hx⟩
              refine ⟨fun h => g1 ?_, by simp only; rw [hpe]; simp⟩
              have h2 := (canRun_congr (m3 t g3')).mp h
              exact (canRun_congr (d3 t g2)).mp h2
  | inherit u =>
    have nsl : ¬ Sleeps s t (.inherit u) := fun h => by obtain ⟨⟨w, hw⟩, _⟩ := h; cases hw
    simp only [step] at hs
    split_ifs at hs with h1
    · cases hs; exact moves_same rfl rfl (fun _ h => h) (fun _ _ => nsl)
    · unfold inherit at hs
      split_ifs at hs with h2 h3
      · obtain ⟨a1, a2, a3, a4, a5⟩ := moveReady_ok hs
        refine ⟨fun h _ => a1.keep t h, fun h => .inl (by rw [a1.pending]; exact h), fun _ h => absurd h id, ?_,
          fun _ _ _ _ h => absurd h nsl⟩
        intro g1 g2 _
        have htu : t ≠ u := by
          rintro rfl
          exact g1 ⟨_, isReady_spec h3⟩
        exact ⟨fun h => g1 ((canRun_congr (a5 t htu)).mp h), by rw [a1.pending]; exact g2⟩
      · cases hs; exact moves_same rfl rfl (fun _ h => h) (fun _ _ => nsl)
      · cases hs; exact moves_same rfl rfl (fun _ h => h) (fun _ _ => nsl)
  | give w =>
    have nsl : ¬ Sleeps s t (.give w) := fun h => by obtain ⟨⟨w, hw⟩, _⟩ := h; cases hw
    simp only [step] at hs
    split_ifs at hs with hg
    · -- first the giver's own priority
      unfold give at hs
      split at hs
      · cases hs
      · rename_i req s1 hd
        have hdis : Up s s1 ∧ s1.susp = s.susp ∧ ∀ x, x ≠ s.current → s1.heap.container x = s.heap.container x := by
          unfold disinherit at hd
          split_ifs at hd
          · split at hd
            · cases hd
            · rename_i s2 hm
              obtain ⟨_, rfl⟩ := Prod.mk.inj (Except.ok.inj hd)
              obtain ⟨a1, a2, a3, a4, a5⟩ := moveReady_ok hm
              exact ⟨a1, a2, a5⟩
          · obtain ⟨_, rfl⟩ := Prod.mk.inj (Except.ok.inj hd)
            exact ⟨.refl s, rfl, fun _ _ => rfl⟩
        obtain ⟨u1, u2, u3⟩ := hdis
        have hcur : CanRun s s.current := ⟨_, isReady_spec hg.1⟩
        have hback : ¬ CanRun s t → ¬ CanRun s1 t := by
          intro h h'
          have htc : t ≠ s.current := by rintro rfl; exact h hcur
          exact h ((canRun_congr (u3 t htc)).mp h')
        cases w with
        | none =>
          cases hs
          exact ⟨fun h _ => u1.keep t h, fun h => .inl (by simp only; rw [u1.pending]; exact h),
            fun _ h => (by have := h.1; cases this), fun g1 g2 _ => ⟨hback g1, by simp only; rw [u1.pending]; exact g2⟩,
            fun _ _ _ _ h => absurd h nsl⟩
        | some u =>
          simp only at hs
          split at hs
          · cases hs
          · rename_i wk s2 hev
            cases hs
            obtain ⟨a1, a2, a3, a4, a5⟩ := event_ok hev
            have hpend : t ∈ s.pending → t ∈ s2.pending := by
              intro h
              rw [← u1.pending] at h
              by_cases h0 : s1.susp = 0
              · rw [(a4 h0).2]; exact h
              · rw [(a5 h0).1]; exact List.mem_append_left _ h
            refine ⟨fun h _ => a3 t (u1.keep t h), fun h => .inl (hpend h), ?_, ?_, fun _ _ _ _ h => absurd h nsl⟩
            · rintro _ ⟨h, _⟩
              have h : u = t := Option.some.inj h
              subst h
              by_cases h0 : s1.susp = 0
              · exact .inr (a4 h0).1
              · exact .inl (by simp only; rw [(a5 h0).1]; simp)
            · intro g1 g2 g3
              have htu : t ≠ u := fun h => g3 (by rw [h]; rfl)
              refine ⟨fun h => hback g1 ((canRun_congr (a2 t htu)).mp h), ?_⟩
              simp only
              rw [← u1.pending] at g2
              by_cases h0 : s1.susp = 0
              · rw [(a4 h0).2]; exact g2
              · rw [(a5 h0).1]; simp [g2, htu]
    · cases hs
      refine moves_same rfl rfl (fun hb h => hg ?_) (fun _ _ => nsl)
      obtain ⟨rfl, ⟨p, hp⟩⟩ := h
      refine ⟨?_, fun x hx => ?_⟩
      · unfold isReady
        rw [hp, I.core.prios _ _ hp]
        simp
      · have : t = x := Option.some.inj hx
        subst this
        exact hb
  | timeout u p =>
    have nsl : ¬ Sleeps s t (.timeout u p) := fun h => by obtain ⟨⟨w, hw⟩, _⟩ := h; cases hw
    simp only [step] at hs
    split_ifs at hs with h1
    · unfold timeout at hs
      simp only at hs
      split_ifs at hs with h2 h3
      · cases hs; exact moves_same rfl rfl (fun _ h => h) (fun _ _ => nsl)
      all_goals first
        | (cases hs; exact moves_same rfl rfl (fun _ h => h) (fun _ _ => nsl))
        | (split at hs
           · cases hs
           · rename_i s1 ht
             cases hs
             obtain ⟨b1, b2, b3, b4, b5⟩ := takeReady_ok ht
             have hx : ∀ x, x ≠ u → s1.heap.container x = s.heap.container x := fun x hx => by
               rw [b1, Function.update_of_ne hx]
             have hup : Up s (addReady s1 u) := addReady_up hx b2
             refine ⟨fun h _ => hup.keep t h, fun h => .inl (by rw [hup.pending]; exact h),
               fun _ h => absurd h id, ?_, fun _ _ _ _ h => absurd h nsl⟩
             intro g1 g2 _
             have htu : t ≠ u := by
               rintro rfl
               exact g1 ⟨_, by assumption⟩
             refine ⟨fun h => g1 ?_, by rw [hup.pending]; exact g2⟩
             refine (canRun_congr ?_).mp h
             rw [addReady_container, Function.update_of_ne htu, hx t htu])
    · cases hs; exact moves_same rfl rfl (fun _ h => h) (fun _ _ => nsl)
  | yield =>
    cases hs
    exact moves_same rfl rfl (fun _ h => h) (fun _ _ h => by obtain ⟨⟨w, hw⟩, _⟩ := h; cases hw)
  | switch =>
    have nsl : ¬ Sleeps s t .switch := fun h => by obtain ⟨⟨w, hw⟩, _⟩ := h; cases hw
    simp only [step] at hs
    split_ifs at hs with h1
    · unfold switchContext at hs
      split_ifs at hs with h2
      · cases hs; exact moves_same rfl rfl (fun _ h => h) (fun _ _ => nsl)
      · unfold select at hs
        simp only at hs
        split_ifs at hs
        split at hs
        · cases hs
        · rename_i x h hn
          cases hs
          refine moves_same ?_ rfl (fun _ h => h) (fun _ _ => nsl)
          show h.container t = s.heap.container t
          unfold nextEntry at hn
          simp only at hn
          split at hn
          · obtain ⟨_, rfl⟩ := Prod.mk.inj (Except.ok.inj hn); rfl
          · cases hn
    · cases hs; exact moves_same rfl rfl (fun _ h => h) (fun _ _ => nsl)

/-! ## C111 -/

/-- Able to run, or woken while the scheduler is suspended. -/
def Awake (s : St) (t : Nat) : Prop := t ∈ s.pending ∨ CanRun s t

theorem up_run {t : Nat} : ∀ (es : List Ev) {s s' : St} {c : Lists} (_ : Inv False s c) (_ : Awake s t)
    (_ : NoSleep t s es) (_ : run s es = .ok s'), Awake s' t ∧ ∃ c', Inv False s' c'
  | [], s, s', c, I, h, _, hr => by
    rw [run] at hr; cases hr; exact ⟨h, c, I⟩
  | e :: es, s, s', c, I, h, hn, hr => by
    rw [run] at hr
    obtain ⟨s1, c1, h1, I1, _⟩ := step_spec (j := False) I e False.elim
    rw [h1] at hr
    have m := step_moves I t e h1
    have h2 : Awake s1 t := by
      rcases h with h | h
      · exact m.keepPend h
      · exact .inr (m.keep h hn.1)
    exact up_run es I1 h2 (hn.2 s1 h1) hr

theorem exists_cases {s : St} {t : Nat} (h : Alive s t) :
    isBlocked s t = true ∨ t ∈ s.pending ∨ CanRun s t := by
  unfold isBlocked CanRun
  rcases hc : s.heap.container t with _ | l
  · exact absurd hc h.1
  · cases l with
    | ready p => exact .inr (.inr ⟨p, rfl⟩)
    | delayed b => by_cases hp : t ∈ s.pending <;> simp [hp]
    | suspended => by_cases hp : t ∈ s.pending <;> simp [hp]
    | ended => exact absurd hc h.2

/-- A task that is woken can run from then on, at the latest when the scheduler is not suspended,
until it calls a blocking function itself or ends. -/
theorem C111_woken_can_run {s s1 s' : St} {t : Nat} {e : Ev} {es : List Ev} (h : Reached s)
    (ht : Alive s t) (hw : Wakes s t e) (h1 : step s e = .ok s1) (hn : NoSleep t s1 es)
    (hr : run s1 es = .ok s') (h0 : s'.susp = 0) : CanRun s' t := by
  obtain ⟨c, I⟩ := h.inv
  obtain ⟨s2, c2, h2, I2, _⟩ := step_spec (j := False) I e False.elim
  rw [h1] at h2
  cases h2
  have m := step_moves I t e h1
  have hup : Awake s1 t := by
    rcases exists_cases ht with hb | hb | hb
    · exact m.wakes hb hw
    · exact m.keepPend hb
    · exact .inr (m.keep hb (fun hsl => by
        rcases hsl with ⟨⟨w, rfl⟩, _⟩ | ⟨rfl, _⟩ <;> exact hw))
  obtain ⟨h3, c3, I3⟩ := up_run es I2 hup hn hr
  rcases h3 with h3 | h3
  · rw [I3.empty h0] at h3; cases h3
  · exact h3

/-- Only the running task can stop being able to run, by calling a blocking function or ending itself. -/
theorem C111_only_own_call {s s' : St} {t : Nat} {e : Ev} (h : Reached s) (hs : step s e = .ok s')
    (hc : CanRun s t) (hn : ¬ CanRun s' t) : ((∃ w, e = .block w) ∨ e = .delete) ∧ s.current = t := by
  obtain ⟨c, I⟩ := h.inv
  by_contra hcon
  refine hn ((step_moves I t e hs).keep hc fun h => hcon ?_)
  rcases h with h | h
  · exact ⟨.inl h.1, h.2⟩
  · exact ⟨.inr h.1, h.2⟩

/-- A task that has called a blocking function cannot run before an event that names it. -/
theorem C111_sleeps_until_named {s s' : St} {w : Wait} {es : List Ev} (h : Reached s)
    (hc : CanRun s s.current) (hi : s.current ≠ idle) (hn : ∀ e ∈ es, ¬ Names s.current e)
    (hr : run s (.block w :: es) = .ok s') : ¬ CanRun s' s.current := by
  obtain ⟨c, I⟩ := h.inv
  obtain ⟨s1, c1, h1, I1, h9⟩ := step_spec (j := False) I (.block w) False.elim
  clear h9
  rw [run, h1] at hr
  simp only at hr
  have hnp : s.current ∉ s.pending := by
    intro hp
    obtain ⟨l, hl, ho⟩ := I.pend _ hp
    obtain ⟨p, hp⟩ := hc
    rw [hl] at hp
    exact ho.ready p (Option.some.inj hp)
  have hrd : isReady s s.current = true := by
    obtain ⟨p, hp⟩ := hc
    unfold isReady
    rw [hp, I.core.prios _ _ hp]
    simp
  obtain ⟨g1, g2⟩ := (step_moves I s.current (.block w) h1).sleeps hc hnp hi hrd ⟨⟨w, rfl⟩, rfl⟩
  generalize s.current = t at g1 g2 hn ⊢
  clear h1 h I hc hi hnp hrd
  induction es generalizing s1 c1 with
  | nil => rw [run] at hr; cases hr; exact g1
  | cons e es ih =>
    rw [run] at hr
    obtain ⟨s2, c2, h2, I2, _⟩ := step_spec (j := False) I1 e False.elim
    rw [h2] at hr
    simp only at hr
    obtain ⟨k1, k2⟩ := (step_moves I1 t e h2).quiet g1 g2 (hn e (by simp))
    exact ih s2 hr c2 I2 k1 k2 (fun x hx => hn x (by simp [hx]))

theorem run_reached : ∀ (es : List Ev) {s s' : St} (_ : Reached s) (_ : run s es = .ok s'), Reached s'
  | [], s, s', h, hr => by rw [run] at hr; cases hr; exact h
  | e :: es, s, s', h, hr => by
    rw [run] at hr
    rcases hst : step s e with u | s1
    · rw [hst] at hr; cases hr
    · rw [hst] at hr; exact run_reached es (h.step hst) hr

/-- A woken task is served: at every context switch from then on, until it calls a blocking
function or ends, the processor goes to a task of at least its priority; to itself, if all others that
can run have a lower one. -/
theorem C111_woken_is_served {s s1 s2 s' : St} {t : Nat} {e : Ev} {es : List Ev} (h : Reached s)
    (ht : Alive s t) (hw : Wakes s t e) (h1 : step s e = .ok s1) (hn : NoSleep t s1 es)
    (hr : run s1 es = .ok s2) (hsw : Switches s2 .switch) (h2 : step s2 .switch = .ok s') :
    s'.prio t ≤ s'.prio s'.current ∧
      ((∀ x, x ≠ t → CanRun s' x → s'.prio x < s'.prio t) → s'.current = t) := by
  have hc := C111_woken_can_run h ht hw h1 hn hr hsw.2.2
  have hR := run_reached es (h.step h1) hr
  obtain ⟨g1, g2, _⟩ := C106_switch_right hR h2 hsw
  have hle := g1.2 t ((g2 t).mpr hc)
  refine ⟨hle, fun hx => ?_⟩
  by_contra hcon
  have := hx s'.current hcon g1.1
  omega

/-! ## Cases -/

/-- Task 1 (priority 3) runs and sleeps for ten ticks; the idle task runs. -/
def asleep1 : List Ev := [.block (.until false 10), .switch]

/-- While it sleeps it cannot run; an interrupt signals it while the scheduler is suspended, and it
can run only when the scheduler is resumed. Then it is served. -/
def signalled : List Ev := asleep1 ++ [.suspendAll, .event 1 true]

example : (match run (start (fun _ => .mark .suspended) [(1, 3)]) signalled with
    | .ok s => decide (s.current = 0 ∧ isReady s 1 = false ∧ s.pending = [1]) | .error _ => false) = true := by
  decide +kernel

def served : List Ev := signalled ++ [.resumeAll [], .switch]

example : (match run (start (fun _ => .mark .suspended) [(1, 3)]) served with
    | .ok s => decide (s.current = 1 ∧ isReady s 1 = true ∧ s.pending = []) | .error _ => false) = true := by
  decide +kernel

/-- Ticks that passed while the scheduler was suspended wake it as well. -/
def lateTick : List Ev := asleep1 ++ [.suspendAll, .tick [1], .resumeAll [[1]], .switch]

example : (match run (start (fun _ => .mark .suspended) [(1, 3)]) lateTick with
    | .ok s => decide (s.current = 1) | .error _ => false) = true := by decide +kernel

end Verif.Ready
