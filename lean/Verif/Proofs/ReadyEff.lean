import Verif.Props.Wake

set_option autoImplicit false

/-! # What the events of the scheduler do to priorities, lists and flags -/

namespace Verif.Ready

open Verif.KList

/-- The events that have nothing to do with mutexes. -/
def Plain : Ev → Prop
  | .inherit _ => False
  | .give _ => False
  | .timeout _ _ => False
  | _ => True

/-- What an event does, unless a task ends. -/
structure Eff (s s' : St) (e : Ev) : Prop where
  old : ∀ x, s.heap.container x ≠ none → s'.prio x = s.prio x ∧ s'.base x = s.base x
  own : ∀ x, s.prio x = s.base x → s'.prio x = s'.base x
  moved : ∀ x, s'.heap.container x = s.heap.container x ∨ CanRun s' x ∨
    (x = s.current ∧ CanRun s x ∧ ∃ w, e = .block w)
  exist : ∀ x, s.heap.container x ≠ none → s'.heap.container x ≠ none
  susp : ∀ x, s.heap.container x = some .suspended → x ∉ s.pending → (∀ a, e ≠ .event x a) →
    e ≠ .notify x → s'.heap.container x = some .suspended
  pend : ∀ x ∈ s'.pending, x ∈ s.pending ∨ ∃ a, e = .event x a
  cur : s'.current = s.current ∨ Switches s e
  flag : s.pend = true → s.susp = 0 → e ≠ .suspendAll → ¬ Switches s e → s'.pend = true ∧ s'.susp = 0

theorem Eff.same {s : St} {e : Ev} : Eff s s e :=
  ⟨fun _ _ => ⟨rfl, rfl⟩, fun _ h => h, fun _ => .inl rfl, fun _ h => h, fun _ h _ _ _ => h,
    fun _ h => .inl h, .inl rfl, fun h h' _ _ => ⟨h, h'⟩⟩

theorem wakeAll_susp {x : Nat} : ∀ (ts : List Nat) {s s' : St} {r r' : Bool}
    (_ : wakeAll s r ts = .ok (r', s')) (_ : s.heap.container x = some .suspended),
    s'.heap.container x = some .suspended
  | [], s, s', r, r', e, h => by
    rw [wakeAll] at e
    obtain ⟨_, rfl⟩ := Prod.mk.inj (Except.ok.inj e)
    exact h
  | t :: ts, s, s', r, r', e, h => by
    rw [wakeAll] at e
    split at e
    · rename_i b hc
      split at e
      · cases e
      · rename_i s1 hw
        obtain ⟨w1, _⟩ := wake_ok hw
        have hxt : x ≠ t := by rintro rfl; rw [h] at hc; cases hc
        exact wakeAll_susp ts e (by rw [w1 x hxt]; exact h)
    · exact wakeAll_susp ts e h

theorem tickBody_susp {x : Nat} {ts : List Nat} {s s' : St} {r : Bool} (e : tickBody s ts = .ok (r, s'))
    (h : s.heap.container x = some .suspended) : s'.heap.container x = some .suspended := by
  unfold tickBody at e
  split at e
  · cases e
  · rename_i r1 s1 hw
    simp only at e
    obtain ⟨_, rfl⟩ := Prod.mk.inj (Except.ok.inj e)
    exact wakeAll_susp ts hw h

theorem makeUp_susp {x : Nat} : ∀ (tss : List (List Nat)) {s s' : St} (_ : makeUp s tss = .ok s')
    (_ : s.heap.container x = some .suspended), s'.heap.container x = some .suspended
  | [], s, s', e, h => by rw [makeUp] at e; cases e; exact h
  | ts :: tss, s, s', e, h => by
    rw [makeUp] at e
    split at e
    · cases e
    · rename_i r s1 ht
      have h1 : s1.heap.container x = some .suspended := tickBody_susp ht h
      exact makeUp_susp tss e h1

theorem Woke.exist {s s' : St} {f : Bool} (w : Woke s s' f) (x : Nat) (h : s.heap.container x ≠ none) :
    s'.heap.container x ≠ none := by
  rcases w x with e | ⟨_, e, _⟩
  · rw [e]; exact h
  · rw [e]; simp

theorem Woke.moved {s s' : St} {f : Bool} (w : Woke s s' f) (x : Nat) :
    s'.heap.container x = s.heap.container x ∨ CanRun s' x := by
  rcases w x with e | ⟨_, e, _⟩
  · exact .inl e
  · exact .inr ⟨_, e⟩

theorem wake_all {s s' : St} {t : Nat} (e : wake s t = .ok s') :
    s'.prio = s.prio ∧ s'.base = s.base ∧ s'.current = s.current ∧ s'.pend = s.pend := by
  unfold wake at e
  split at e
  · cases e
  · rw [← Except.ok.inj e]; exact ⟨rfl, rfl, rfl, rfl⟩

theorem block_all {s s' : St} {w : Wait} (e : block s w = .ok s') :
    s'.prio = s.prio ∧ s'.base = s.base ∧ s'.current = s.current ∧ s'.pend = true ∧ s'.susp = s.susp ∧
      s'.pending = s.pending ∧ (∀ x, x ≠ s.current → s'.heap.container x = s.heap.container x) ∧
      (w = .forever → s'.heap.container s.current = some .suspended) ∧
      (∃ l, s'.heap.container s.current = some l ∧ (l = .suspended ∨ ∃ b, l = .delayed b)) := by
  unfold block at e
  split at e
  · cases e
  · rename_i s1 ht
    obtain ⟨h1, h2, h3, h4, h5⟩ := takeReady_ok ht
    have hb : s1.base = s.base := by
      unfold takeReady at ht
      split at ht
      · cases ht
      · rw [← Except.ok.inj ht]
    split at e
    · rw [← Except.ok.inj e]
      have hc : ∀ (h : Heap LId Nat) (l : LId) (x : Nat), (insertEnd h l x).container = Function.update h.container x (some l) :=
        fun _ _ _ => rfl
      refine ⟨h5, hb, h3, rfl, h4, h2, fun x hx => ?_, fun _ => ?_, .suspended, ?_, .inl rfl⟩
      · simp only [hc, h3, h1, Function.update_of_ne hx]
      · simp only [hc, h3, Function.update_self]
      · simp only [hc, h3, Function.update_self]
    · rename_i b v
      simp only at e
      split at e
      · cases e
      · rename_i h hi
        rw [← Except.ok.inj e]
        have hcc := insert_container hi
        have hsv : (setValue s1.heap s1.current (v % 4294967296)).container = s1.heap.container := rfl
        refine ⟨h5, hb, h3, rfl, h4, h2, fun x hx => ?_, fun hw => (by cases hw), .delayed b, ?_, .inr ⟨b, rfl⟩⟩
        · simp only [hcc, hsv, h3, Function.update_of_ne hx]
          change s1.heap.container x = _
          rw [h1, Function.update_of_ne hx]
        · simp only [hcc, h3, Function.update_self]

theorem eff_step {s s' : St} {c : Lists} (I : Inv False s c) {e : Ev} (hp : Plain e) (hd : e ≠ .delete)
    (hre : e ≠ .reap) (hs : step s e = .ok s') : Eff s s' e := by
  cases e with
  | delete => exact absurd rfl hd
  | reap => exact absurd rfl hre
  | inherit t => exact hp.elim
  | give t => exact hp.elim
  | timeout t p => exact hp.elim
  | create t p =>
    simp only [step] at hs
    split_ifs at hs with hn
    · cases hs
      have hc : (create s t p).heap.container = Function.update s.heap.container t
          (some (.ready (if maxPriorities ≤ p then maxPriorities - 1 else p))) := by
        unfold create
        simp only [addReady_container, Function.update_self]
      have hp : (create s t p).prio = Function.update s.prio t (if maxPriorities ≤ p then maxPriorities - 1 else p) := rfl
      have hb : (create s t p).base = Function.update s.base t (if maxPriorities ≤ p then maxPriorities - 1 else p) := rfl
      have hne : ∀ x, s.heap.container x ≠ none → x ≠ t := by rintro x hx rfl; exact hx hn
      refine ⟨?_, ?_, ?_, ?_, ?_, fun x hx => .inl hx, .inl rfl, ?_⟩
      · intro x hx
        rw [hp, hb, Function.update_of_ne (hne x hx), Function.update_of_ne (hne x hx)]; exact ⟨rfl, rfl⟩
      · intro x hx
        rw [hp, hb]
        by_cases hxt : x = t
        · subst hxt; simp
        · rw [Function.update_of_ne hxt, Function.update_of_ne hxt]; exact hx
      · intro x
        by_cases hxt : x = t
        · subst hxt; exact .inr (.inl ⟨_, by rw [hc]; exact Function.update_self ..⟩)
        · left; rw [hc, Function.update_of_ne hxt]
      · intro x hx
        rw [hc, Function.update_of_ne (hne x hx)]; exact hx
      · intro x hx _ _ _
        rw [hc, Function.update_of_ne (hne x (by rw [hx]; simp))]; exact hx
      · intro h1 h2 _ _
        exact ⟨by unfold create addReady; simp [h1], h2⟩
    · cases hs; exact .same
  | block w =>
    simp only [step] at hs
    split_ifs at hs with h
    · obtain ⟨b1, b2, b3, b4, b5, b6, b7, b8, l, b9, _⟩ := block_all hs
      have hr := isReady_spec h.1
      refine ⟨fun x _ => ⟨by rw [b1], by rw [b2]⟩, fun x hx => by rw [b1, b2]; exact hx, ?_, ?_, ?_,
        fun x hx => .inl (by rw [← b6]; exact hx), .inl b3, fun _ h2 _ _ => ⟨b4, by rw [b5]; exact h2⟩⟩
      · intro x
        by_cases hx : x = s.current
        · exact .inr (.inr ⟨hx, by rw [hx]; exact ⟨_, hr⟩, w, rfl⟩)
        · exact .inl (b7 x hx)
      · intro x hx
        by_cases hxc : x = s.current
        · rw [hxc, b9]; simp
        · rw [b7 x hxc]; exact hx
      · intro x hx _ _ _
        have : x ≠ s.current := by rintro rfl; rw [hr] at hx; cases hx
        rw [b7 x this]; exact hx
    · cases hs; exact .same
  | tick ts =>
    simp only [step] at hs
    split_ifs at hs with h0
    · obtain ⟨req, h, b, c', e1, I1, g1, h1, w1⟩ := tickBody_spec I.core ts
      rw [e1] at hs
      cases hs
      have hsus := fun x => tickBody_susp (x := x) e1
      exact ⟨fun _ _ => ⟨rfl, rfl⟩, fun _ h => h, fun x => (w1.moved x).imp id .inl, fun x => w1.exist x,
        fun x hx _ _ _ => hsus x hx, fun x hx => .inl hx, .inl rfl,
        fun hq hz _ _ => ⟨by simp [hq], hz⟩⟩
    · cases hs
      exact ⟨fun _ _ => ⟨rfl, rfl⟩, fun _ h => h, fun _ => .inl rfl, fun _ h => h, fun _ h _ _ _ => h,
        fun _ h => .inl h, .inl rfl, fun hq hz _ _ => ⟨by simp [hq], hz⟩⟩
  | event t a =>
    simp only [step] at hs
    split_ifs at hs with hb
    · obtain ⟨hnp, l, hl, ho⟩ := blocked_spec hb
      obtain ⟨wk, s2, c2, g1, g2, g3, g4, g5, g6, g7, g8⟩ := event_spec I.toInv0 hb
      rw [g1] at hs
      cases hs
      obtain ⟨k1, k2, k3, k4, k5⟩ := event_ok g1
      refine ⟨fun x _ => ⟨by simp only [g4], by simp only [g5]⟩, fun x hx => by simp only [g4, g5]; exact hx, ?_, ?_, ?_, ?_,
        .inl g6, fun hq hz _ _ => ⟨by simp [g7, hq], by simp only [k1]; exact hz⟩⟩
      · intro x
        by_cases hx : x = t
        · subst hx
          by_cases h0 : s.susp = 0
          · exact .inr (.inl (k4 h0).1)
          · exact .inl (k5 h0).2
        · exact .inl (k2 x hx)
      · intro x hx
        by_cases hxt : x = t
        · subst hxt
          by_cases h0 : s.susp = 0
          · obtain ⟨p, hp⟩ := (k4 h0).1
            simp only [hp]; simp
          · simp only [(k5 h0).2]; exact hx
        · simp only [k2 x hxt]; exact hx
      · intro x hx _ hne _
        have hxt : x ≠ t := by rintro rfl; exact hne a rfl
        simp only [k2 x hxt]; exact hx
      · intro x hx
        simp only at hx
        by_cases h0 : s.susp = 0
        · rw [(k4 h0).2] at hx; exact .inl hx
        · rw [(k5 h0).1] at hx
          rcases List.mem_append.mp hx with h | h
          · exact .inl h
          · right; rw [List.mem_singleton] at h; subst h; exact ⟨a, rfl⟩
    · cases hs; exact .same
  | notify t =>
    simp only [step] at hs
    split_ifs at hs with hb
    · split at hs
      · cases hs
      · rename_i s2 hw
        cases hs
        obtain ⟨w1, w2, w3, w4⟩ := wake_ok hw
        obtain ⟨v1, v2, v3, v4⟩ := wake_all hw
        refine ⟨fun x _ => ⟨by simp only [v1], by simp only [v2]⟩, fun x hx => by simp only [v1, v2]; exact hx, ?_, ?_, ?_,
          fun x hx => .inl (by simp only [w3] at hx; exact hx),
          .inl v3, fun hq hz _ _ => ⟨by simp [v4, hq], by simp only [w4]; exact hz⟩⟩
        · intro x
          by_cases hx : x = t
          · subst hx; exact .inr (.inl w2)
          · exact .inl (w1 x hx)
        · intro x hx
          by_cases hxt : x = t
          · subst hxt
            obtain ⟨p, hp⟩ := w2
            simp only [hp]; simp
          · simp only [w1 x hxt]; exact hx
        · intro x hx _ _ hne
          have hxt : x ≠ t := by rintro rfl; exact hne rfl
          simp only [w1 x hxt]; exact hx
    · cases hs; exact .same
  | suspendAll =>
    simp only [step] at hs
    cases hs
    exact ⟨fun _ _ => ⟨rfl, rfl⟩, fun _ h => h, fun _ => .inl rfl, fun _ h => h, fun _ h _ _ _ => h,
      fun _ h => .inl h, .inl rfl, fun _ _ h _ => absurd rfl h⟩
  | resumeAll tss =>
    simp only [step] at hs
    split_ifs at hs with h0
    · cases hs; exact .same
    · unfold resumeAll at hs
      simp only at hs
      split_ifs at hs with h1
      · cases hs
        exact ⟨fun _ _ => ⟨rfl, rfl⟩, fun _ h => h, fun _ => .inl rfl, fun _ h => h, fun _ h _ _ _ => h,
          fun _ h => .inl h, .inl rfl, fun _ hz _ _ => absurd hz h0⟩
      · obtain ⟨s1, c1, e1, I1, g1, l1⟩ := drain_spec s.pending
          (s := { s with susp := s.susp - 1, pending := [] }) (I.core.same rfl rfl rfl rfl) I.nodup I.pend
        rw [e1] at hs
        simp only at hs
        obtain ⟨s2, c2, e2, I2, g2, l2⟩ := makeUp_spec tss I1
        rw [e2] at hs
        cases hs
        have l := l1.trans l2
        refine ⟨fun x _ => ⟨by simp only [l.prio], by simp only [l.base]⟩,
          fun x hx => by simp only [l.prio, l.base]; exact hx,
          fun x => (l.woke.moved x).imp id .inl, fun x => l.woke.exist x, ?_, ?_, .inl l.current,
          fun _ hz _ _ => absurd hz h0⟩
        · intro x hx hnp _ _
          obtain ⟨_, _, d3, _⟩ := drain_ok s.pending e1
          have h2 : s2.heap.container x = some .suspended := makeUp_susp tss e2 (by rw [d3 x hnp]; exact hx)
          exact h2
        · intro x hx
          simp only [l.pending] at hx
          cases hx
  | yield =>
    simp only [step] at hs
    cases hs
    exact ⟨fun _ _ => ⟨rfl, rfl⟩, fun _ h => h, fun _ => .inl rfl, fun _ h => h, fun _ h _ _ _ => h,
      fun _ h => .inl h, .inl rfl, fun _ h _ _ => ⟨rfl, h⟩⟩
  | switch =>
    simp only [step] at hs
    split_ifs at hs with hp
    · unfold switchContext at hs
      split_ifs at hs with h0
      · cases hs
        exact ⟨fun _ _ => ⟨rfl, rfl⟩, fun _ h => h, fun _ => .inl rfl, fun _ h => h, fun _ h _ _ _ => h,
          fun _ h => .inl h, .inl rfl, fun _ hz _ _ => absurd hz h0⟩
      · have h0' : s.susp = 0 := by simpa using h0
        have hsw : Switches s .switch := ⟨rfl, hp, h0'⟩
        obtain ⟨r, hr⟩ := I.idle
        obtain ⟨x, p, h, z, e1, e2, _⟩ := core_select
          (s := { s with yieldPending := false, pend := false }) (I.core.same rfl rfl rfl rfl) ⟨_, r, hr⟩
        rw [e1] at hs
        cases hs
        exact ⟨fun _ _ => ⟨rfl, rfl⟩, fun _ h => h, fun x => .inl (by simp only [e2]),
          fun x h => by simp only [e2]; exact h, fun x h _ _ _ => by simp only [e2]; exact h,
          fun _ h => .inl h, .inr hsw, fun _ _ _ h => absurd hsw h⟩
    · cases hs; exact .same

/-- What an event does, also if a task ends. -/
structure Fx (s s' : St) (e : Ev) : Prop where
  old : ∀ x, s.heap.container x ≠ none → s'.prio x = s.prio x ∧ s'.base x = s.base x
  own : ∀ x, s.prio x = s.base x → s'.prio x = s'.base x
  moved : ∀ x, s'.heap.container x = s.heap.container x ∨ CanRun s' x ∨
    (x = s.current ∧ CanRun s x ∧ ((∃ w, e = .block w) ∨ e = .delete)) ∨ s.heap.container x = some .ended
  alive : ∀ x, Alive s x → Alive s' x ∨ (x = s.current ∧ e = .delete)
  here : s.heap.container s.current ≠ none → s'.heap.container s.current ≠ none
  susp : ∀ x, s.heap.container x = some .suspended → x ∉ s.pending → (∀ a, e ≠ .event x a) →
    e ≠ .notify x → s'.heap.container x = some .suspended
  pend : ∀ x ∈ s'.pending, x ∈ s.pending ∨ ∃ a, e = .event x a
  cur : s'.current = s.current ∨ Switches s e
  flag : s.pend = true → s.susp = 0 → e ≠ .suspendAll → ¬ Switches s e → s'.pend = true ∧ s'.susp = 0

theorem fx_step {s s' : St} {c : Lists} (I : Inv False s c) {e : Ev} (hp : Plain e) (hs : step s e = .ok s') :
    Fx s s' e := by
  have same : ∀ e, Fx s s e := fun e =>
    ⟨fun _ _ => ⟨rfl, rfl⟩, fun _ h => h, fun _ => .inl rfl, fun _ h => .inl h, fun h => h, fun _ h _ _ _ => h,
      fun _ h => .inl h, .inl rfl, fun h h' _ _ => ⟨h, h'⟩⟩
  by_cases hd : e = .delete
  · subst hd
    simp only [step] at hs
    split_ifs at hs with h
    · obtain ⟨k1, k2, k3, k4, k5, k6, k7, k8⟩ := delete_ok hs
      have hr := isReady_spec h.1
      refine ⟨fun x _ => ⟨by rw [k5], by rw [k6]⟩, fun x hx => by rw [k5, k6]; exact hx, fun x => ?_, fun x hx => ?_,
        fun _ => by rw [k3]; simp, fun x hx _ _ _ => ?_, fun x hx => .inl (by rw [← k1]; exact hx), .inl k4,
        fun _ h2 _ _ => ⟨k7, by rw [k8]; exact h2⟩⟩
      · by_cases hx : x = s.current
        · exact .inr (.inr (.inl ⟨hx, by rw [hx]; exact ⟨_, hr⟩, .inr rfl⟩))
        · exact .inl (k2 x hx)
      · by_cases hxc : x = s.current
        · exact .inr ⟨hxc, rfl⟩
        · left; unfold Alive; rw [k2 x hxc]; exact hx
      · have : x ≠ s.current := by rintro rfl; rw [hr] at hx; cases hx
        rw [k2 x this]; exact hx
    · cases hs; exact same _
  by_cases hre : e = .reap
  · subst hre
    simp only [step] at hs
    split_ifs at hs with h
    · rcases reap_ok I hs with rfl | ⟨y, k1, k2, k3, k4, k5, k6, k7, k8, k9, _⟩
      · exact same _
      · refine ⟨fun x _ => ⟨by rw [k6], by rw [k7]⟩, fun x hx => by rw [k6, k7]; exact hx, fun x => ?_, fun x hx => ?_,
          fun hx => ?_, fun x hx _ _ _ => ?_, fun x hx => .inl (by rw [← k1]; exact hx), .inl k5,
          fun h1 h2 _ _ => ⟨by rw [k8]; exact h1, by rw [k9]; exact h2⟩⟩
        · by_cases hxy : x = y
          · subst hxy; exact .inr (.inr (.inr k2))
          · exact .inl (k3 x hxy)
        · have : x ≠ y := by rintro rfl; exact hx.2 k2
          left; unfold Alive; rw [k3 x this]; exact hx
        · obtain ⟨p, hp⟩ := I.idle
          have : s.current ≠ y := by
            intro e
            rw [← e, h, hp] at k2; cases k2
          rw [k3 _ this]; exact hx
        · have : x ≠ y := by rintro rfl; rw [k2] at hx; cases hx
          rw [k3 x this]; exact hx
    · cases hs; exact same _
  have E := eff_step I hp hd hre hs
  refine ⟨E.old, E.own, fun x => ?_, fun x hx => ?_, E.exist _, E.susp, E.pend, E.cur, E.flag⟩
  · rcases E.moved x with h | h | ⟨h1, h2, h3⟩
    · exact .inl h
    · exact .inr (.inl h)
    · exact .inr (.inr (.inl ⟨h1, h2, .inl h3⟩))
  · left
    refine ⟨E.exist x hx.1, ?_⟩
    intro he
    rcases E.moved x with h | ⟨p, h⟩ | ⟨h1, ⟨p, h2⟩, w, rfl⟩
    · rw [h] at he; exact hx.2 he
    · rw [he] at h; cases h
    · simp only [step] at hs
      split_ifs at hs
      · obtain ⟨_, _, _, _, _, _, _, _, l, b9, b10⟩ := block_all hs
        rw [h1, b9] at he
        cases he
        rcases b10 with h | ⟨b, h⟩ <;> cases h
      · cases hs; exact hx.2 he

theorem two_in_list {h : Heap LId Nat} {c : Lists} (w : World h c) {l : LId} {x y : Nat} (hne : x ≠ y)
    (hx : h.container x = some l) (hy : h.container y = some l) : 1 < h.count l := by
  rw [(w l).count]
  have h1 := ((w l).mem x).mp hx
  have h2 := ((w l).mem y).mp hy
  rcases ha : (c l).all with _ | ⟨a, _ | ⟨b, r⟩⟩
  · rw [ha] at h1; cases h1
  · rw [ha, List.mem_singleton] at h1 h2
    exact absurd (h1.trans h2.symm) hne
  · simp

/-- Only priorities and places in the ready lists have changed. -/
structure Same (s s' : St) : Prop where
  base : s'.base = s.base
  current : s'.current = s.current
  susp : s'.susp = s.susp
  pending : s'.pending = s.pending
  run : ∀ x, CanRun s' x ↔ CanRun s x
  cont : ∀ x, ¬ CanRun s x → s'.heap.container x = s.heap.container x

theorem Same.refl (s : St) : Same s s :=
  ⟨rfl, rfl, rfl, rfl, fun _ => .rfl, fun _ _ => rfl⟩

theorem Same.exist {s s' : St} (h : Same s s') (x : Nat) (hx : s.heap.container x ≠ none) :
    s'.heap.container x ≠ none := by
  by_cases hr : CanRun s x
  · obtain ⟨p, hp⟩ := (h.run x).mpr hr
    rw [hp]; simp
  · rw [h.cont x hr]; exact hx

theorem CanRun.alive {s : St} {x : Nat} (h : CanRun s x) : Alive s x := by
  obtain ⟨p, hp⟩ := h
  unfold Alive; rw [hp]; simp

theorem Same.alive {s s' : St} (h : Same s s') (x : Nat) (hx : Alive s x) : Alive s' x := by
  by_cases hr : CanRun s x
  · exact ((h.run x).mpr hr).alive
  · unfold Alive; rw [h.cont x hr]; exact hx

theorem moveReady_all {s s' : St} {t p : Nat} (ht : CanRun s t) (e : moveReady s t p = .ok s') :
    Same s s' ∧ s'.prio = Function.update s.prio t p ∧ s'.pend = s.pend := by
  obtain ⟨u1, u2, u3, u4, u5⟩ := moveReady_ok e
  have hfl := moveReady_flags e
  have hpb : s'.prio = Function.update s.prio t p ∧ s'.base = s.base := by
    unfold moveReady at e
    split at e
    · cases e
    · rename_i s1 h1
      unfold takeReady at h1
      split at h1
      · cases h1
      · rw [← Except.ok.inj e, ← Except.ok.inj h1]; exact ⟨rfl, rfl⟩
  refine ⟨⟨hpb.2, u3, u2, u1.pending, fun x => ?_, fun x hx => ?_⟩, hpb.1, hfl.2.1⟩
  · by_cases hx : x = t
    · subst hx; exact ⟨fun _ => ht, fun _ => u4⟩
    · exact canRun_congr (u5 x hx)
  · exact u5 x (by rintro rfl; exact hx ht)

theorem inherit_all {s s' : St} {t : Nat} (e : inherit s t = .ok s') :
    Same s s' ∧ s'.prio = Function.update s.prio t (max (s.prio t) (s.prio s.current)) ∧ s'.pend = s.pend := by
  unfold inherit at e
  split_ifs at e with h1 h2
  · obtain ⟨a, b, d⟩ := moveReady_all ⟨_, isReady_spec h2⟩ e
    exact ⟨a, by rw [b, Nat.max_eq_right (Nat.le_of_lt h1)], d⟩
  · cases e
    exact ⟨⟨rfl, rfl, rfl, rfl, fun _ => .rfl, fun _ _ => rfl⟩, by rw [Nat.max_eq_right (Nat.le_of_lt h1)], rfl⟩
  · cases e
    exact ⟨.refl s, by rw [Nat.max_eq_left (by omega), Function.update_eq_self], rfl⟩

theorem timeout_all {s s' : St} {t p : Nat} (e : timeout s t p = .ok s') :
    Same s s' ∧ s'.prio = Function.update s.prio t (max (s.base t) p) ∧ s'.pend = s.pend := by
  unfold timeout at e
  simp only at e
  generalize hqd : (if s.base t < p then p else s.base t) = q at e
  have hqm : max (s.base t) p = q := by subst hqd; split_ifs <;> omega
  rw [hqm]
  by_cases h1 : s.prio t = q
  · rw [if_pos h1] at e
    cases e
    exact ⟨.refl s, by rw [← h1, Function.update_eq_self], rfl⟩
  · rw [if_neg h1] at e
    by_cases h2 : s.heap.container t = some (.ready (s.prio t))
    · rw [if_pos h2] at e
      split at e
      · cases e
      · rename_i s1 ht
        obtain ⟨t1, t2, t3, t4, t5⟩ := takeReady_ok ht
        have hb : s1.base = s.base ∧ s1.pend = s.pend := by
          unfold takeReady at ht
          split at ht
          · cases ht
          · rw [← Except.ok.inj ht]; exact ⟨rfl, rfl⟩
        cases e
        have hcon : ∀ x, x ≠ t → (addReady s1 t).heap.container x = s.heap.container x := by
          intro x hx
          rw [addReady_container, Function.update_of_ne hx, t1, Function.update_of_ne hx]
        refine ⟨⟨hb.1, t3, t4, t2, fun x => ?_, fun x hx => ?_⟩, t5, hb.2⟩
        · by_cases hx : x = t
          · subst hx
            exact ⟨fun _ => ⟨_, h2⟩, fun _ => ⟨_, by rw [addReady_container]; exact Function.update_self ..⟩⟩
          · exact canRun_congr (hcon x hx)
        · exact hcon x (by rintro rfl; exact hx ⟨_, h2⟩)
    · rw [if_neg h2] at e
      cases e
      exact ⟨⟨rfl, rfl, rfl, rfl, fun _ => .rfl, fun _ _ => rfl⟩, rfl, rfl⟩

theorem event_all {s s' : St} {t : Nat} {w : Bool} (e : event s t = .ok (w, s')) :
    s'.prio = s.prio ∧ s'.base = s.base ∧ s'.current = s.current ∧ s'.pend = s.pend ∧
      w = decide (s.prio s.current < s.prio t) := by
  unfold event at e
  split at e
  · cases e
  · rename_i s1 h1
    have key : s1.prio = s.prio ∧ s1.base = s.base ∧ s1.current = s.current ∧ s1.pend = s.pend := by
      split_ifs at h1
      · exact wake_all h1
      · cases h1; exact ⟨rfl, rfl, rfl, rfl⟩
    obtain ⟨k1, k2, k3, k4⟩ := key
    split_ifs at e with hlt
    · cases e; exact ⟨k1, k2, k3, k4, by rw [k1, k3] at hlt; simp [hlt]⟩
    · cases e; exact ⟨k1, k2, k3, k4, by rw [k1, k3] at hlt; simp [hlt]⟩

/-- Giving a mutex back with the scheduler running. -/
theorem give_all {s s' : St} {w : Option Nat} (hr : CanRun s s.current) (h0 : s.susp = 0)
    (hw : ∀ t ∈ w, ¬ CanRun s t) (e : give s w = .ok s') :
    s'.prio = Function.update s.prio s.current (s.base s.current) ∧ s'.base = s.base ∧
      s'.current = s.current ∧ s'.susp = 0 ∧ s'.pending = s.pending ∧
      (∀ t ∈ w, CanRun s' t) ∧ (∀ x, x ∉ w → (CanRun s' x ↔ CanRun s x)) ∧
      (∀ x, x ∉ w → ¬ CanRun s x → s'.heap.container x = s.heap.container x) ∧
      (s.pend = true → s'.pend = true) ∧
      (∀ t ∈ w, s.base s.current < s.prio t → s'.pend = true) ∧
      (w = none → s.prio s.current ≠ s.base s.current → s'.pend = true) := by
  unfold give at e
  split at e
  · cases e
  · rename_i req s1 hd
    have key : Same s s1 ∧ s1.prio = Function.update s.prio s.current (s.base s.current) ∧ s1.pend = s.pend ∧
        (s.prio s.current ≠ s.base s.current → req = true) := by
      unfold disinherit at hd
      split_ifs at hd with hne
      · split at hd
        · cases hd
        · rename_i s2 hm
          cases hd
          obtain ⟨a, b, d⟩ := moveReady_all hr hm
          exact ⟨a, b, d, fun _ => rfl⟩
      · cases hd
        have hne' : s.prio s.current = s.base s.current := not_not.mp hne
        exact ⟨.refl s, by rw [← hne', Function.update_eq_self], rfl, fun h => absurd h hne⟩
    obtain ⟨k1, k2, k3, k4⟩ := key
    cases w with
    | none =>
      simp only at e
      cases e
      exact ⟨k2, k1.base, k1.current, k1.susp.trans h0, k1.pending, fun t ht => (by cases ht),
        fun x _ => k1.run x, fun x _ hx => k1.cont x hx, fun h => by simp [k3, h], fun t ht => (by cases ht),
        fun _ h => by simp [k4 h]⟩
    | some t =>
      simp only at e
      split at e
      · cases e
      · rename_i wk s2 he
        cases e
        obtain ⟨a1, a2, a3, a4, a5⟩ := event_ok he
        obtain ⟨b1, b2, b3, b4, b5⟩ := event_all he
        have h01 : s1.susp = 0 := k1.susp.trans h0
        have htr := hw t rfl
        have htc : t ≠ s.current := by rintro rfl; exact htr hr
        refine ⟨b1.trans k2, b2.trans k1.base, b3.trans k1.current, a1.trans h01, (a4 h01).2.trans k1.pending,
          ?_, ?_, ?_, ?_, ?_, fun h => (by cases h)⟩
        · intro x hx
          cases hx
          exact (a4 h01).1
        · intro x hx
          have hxt : x ≠ t := by rintro rfl; exact hx rfl
          exact (canRun_congr (a2 x hxt)).trans (k1.run x)
        · intro x hx hxr
          have hxt : x ≠ t := by rintro rfl; exact hx rfl
          simp only [a2 x hxt]
          exact k1.cont x hxr
        · intro h
          simp [b4, k3, h]
        · intro x hx hlt
          cases hx
          have : wk = true := by
            rw [b5, k2, k1.current, Function.update_self, Function.update_of_ne htc]
            simpa using hlt
          simp [this]

end Verif.Ready
