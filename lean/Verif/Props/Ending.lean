import Verif.Spec.Ending
import Verif.Props.Wake

set_option autoImplicit false

/-!
# C161: a task that ends itself

The start-up task ends itself when the vehicle is set up (initialize.c 267).
-/

namespace Verif.Ready

open Verif.KList

/-- What every function of the kernel but the change of tasks leaves alone. -/
structure Soft (s s' : St) : Prop where
  none : ∀ x, s.heap.container x = none → s'.heap.container x = none
  owed : Owed s → Owed s'
  current : s'.current = s.current

theorem Soft.refl (s : St) : Soft s s := ⟨fun _ h => h, fun h => h, rfl⟩

theorem Soft.trans {a b c : St} (h : Soft a b) (k : Soft b c) : Soft a c :=
  ⟨fun x hx => k.none x (h.none x hx), fun hx => k.owed (h.owed hx), k.current.trans h.current⟩

theorem remove_some {h h' : Heap LId Nat} {x k : Nat} (e : remove h x = .ok (k, h')) : h.container x ≠ none := by
  intro hn
  unfold remove at e
  rw [hn] at e
  cases e

theorem wake_soft {s s' : St} {t : Nat} (e : wake s t = .ok s') : Soft s s' := by
  unfold wake at e
  split at e
  · cases e
  · rename_i k h hr
    cases e
    have hc := remove_container hr
    refine ⟨fun x hx => ?_, fun h => h, rfl⟩
    have hxt : x ≠ t := by rintro rfl; exact remove_some hr hx
    rw [addReady_container, Function.update_of_ne hxt]
    show h.container x = _
    rw [hc, Function.update_of_ne hxt, hx]

theorem takeReady_soft {s s' : St} {t q : Nat} (e : takeReady s t q = .ok s') :
    Soft s s' ∧ s.heap.container t ≠ none := by
  unfold takeReady at e
  split at e
  · cases e
  · rename_i k h hr
    cases e
    have hc := remove_container hr
    refine ⟨⟨fun x hx => ?_, fun h => h, rfl⟩, remove_some hr⟩
    have hxt : x ≠ t := by rintro rfl; exact remove_some hr hx
    show h.container x = _
    rw [hc, Function.update_of_ne hxt, hx]

theorem addReady_soft {s s1 : St} {t : Nat} (h : Soft s s1) (ht : s.heap.container t ≠ none) : Soft s (addReady s1 t) := by
  refine ⟨fun x hx => ?_, h.owed, h.current⟩
  have hxt : x ≠ t := by rintro rfl; exact ht hx
  rw [addReady_container, Function.update_of_ne hxt]
  exact h.none x hx

theorem wakeAll_soft : ∀ (ts : List Nat) {s s' : St} {r r' : Bool} (_ : wakeAll s r ts = .ok (r', s')), Soft s s'
  | [], s, s', r, r', e => by
    rw [wakeAll] at e
    obtain ⟨_, rfl⟩ := Prod.mk.inj (Except.ok.inj e)
    exact .refl s
  | t :: ts, s, s', r, r', e => by
    rw [wakeAll] at e
    split at e
    · split at e
      · cases e
      · rename_i s1 hw
        exact (wake_soft hw).trans (wakeAll_soft ts e)
    · exact wakeAll_soft ts e

theorem tickBody_soft {ts : List Nat} {s s' : St} {r : Bool} (e : tickBody s ts = .ok (r, s')) : Soft s s' := by
  unfold tickBody at e
  split at e
  · cases e
  · rename_i r1 s1 hw
    simp only at e
    obtain ⟨_, rfl⟩ := Prod.mk.inj (Except.ok.inj e)
    exact wakeAll_soft ts hw

theorem owe_soft {s s' : St} (h : Soft s s') (b : Bool) :
    Soft s { s' with yieldPending := s'.yieldPending || b } := by
  refine ⟨h.none, fun k => ?_, h.current⟩
  rcases h.owed k with k | k
  · exact .inl k
  · exact .inr (by simp [k])

theorem pend_soft {s s' : St} (h : Soft s s') (b : Bool) : Soft s { s' with pend := s'.pend || b } := by
  refine ⟨h.none, fun k => ?_, h.current⟩
  rcases h.owed k with k | k
  · exact .inl (by simp [k])
  · exact .inr k

theorem makeUp_soft : ∀ (tss : List (List Nat)) {s s' : St} (_ : makeUp s tss = .ok s'), Soft s s'
  | [], s, s', e => by rw [makeUp] at e; cases e; exact .refl s
  | ts :: tss, s, s', e => by
    rw [makeUp] at e
    split at e
    · cases e
    · rename_i r s1 ht
      exact (owe_soft (tickBody_soft ht) r).trans (makeUp_soft tss e)

theorem drain_soft : ∀ (ts : List Nat) {s s' : St} (_ : drain s ts = .ok s'), Soft s s'
  | [], s, s', e => by rw [drain] at e; cases e; exact .refl s
  | t :: ts, s, s', e => by
    rw [drain] at e
    split at e
    · cases e
    · rename_i s1 hw
      exact (owe_soft (wake_soft hw) _).trans (drain_soft ts e)

theorem event_soft {s s' : St} {t : Nat} {w : Bool} (e : event s t = .ok (w, s')) : Soft s s' := by
  unfold event at e
  split at e
  · cases e
  · rename_i s1 hw
    have h : Soft s s1 := by
      split_ifs at hw
      · exact wake_soft hw
      · cases hw; exact ⟨fun _ h => h, fun h => h, rfl⟩
    split_ifs at e
    · obtain ⟨_, rfl⟩ := Prod.mk.inj (Except.ok.inj e)
      exact ⟨h.none, fun _ => .inr rfl, h.current⟩
    · obtain ⟨_, rfl⟩ := Prod.mk.inj (Except.ok.inj e)
      exact h

theorem moveReady_soft {s s' : St} {t p : Nat} (e : moveReady s t p = .ok s') : Soft s s' := by
  unfold moveReady at e
  split at e
  · cases e
  · rename_i s1 ht
    cases e
    obtain ⟨h1, h2⟩ := takeReady_soft ht
    exact addReady_soft (s1 := { s1 with prio := _ }) ⟨h1.none, h1.owed, h1.current⟩ h2

theorem block_soft {s s' : St} {w : Wait} (e : block s w = .ok s') : Soft s s' := by
  unfold block at e
  split at e
  · cases e
  · rename_i s1 ht
    obtain ⟨h1, h2⟩ := takeReady_soft ht
    rw [← h1.current] at h2
    cases w with
    | forever =>
      cases e
      refine ⟨fun x hx => ?_, fun _ => .inl rfl, h1.current⟩
      have hxt : x ≠ s1.current := by rintro rfl; exact h2 hx
      show (insertEnd s1.heap .suspended s1.current).container x = none
      simp only [insertEnd, Function.update_of_ne hxt]
      exact h1.none x hx
    | «until» b v =>
      simp only at e
      split at e
      · cases e
      · rename_i h' hi
        cases e
        have hc := insert_container hi
        refine ⟨fun x hx => ?_, fun _ => .inl rfl, h1.current⟩
        have hxt : x ≠ s1.current := by rintro rfl; exact h2 hx
        show h'.container x = none
        rw [hc, Function.update_of_ne hxt]
        exact h1.none x hx

/-- Every event but a change of tasks. -/
theorem step_soft {s s' : St} {c : Lists} (I : Inv False s c) {e : Ev} (hs : step s e = .ok s')
    (hsw : ¬ Switches s e) : (∀ x, s.heap.container x = none → (∀ p, e ≠ .create x p) → s'.heap.container x = none) ∧
      (Owed s → Owed s') ∧ s'.current = s.current := by
  have done : Soft s s' → (∀ x, s.heap.container x = none → (∀ p, e ≠ .create x p) → s'.heap.container x = none) ∧
      (Owed s → Owed s') ∧ s'.current = s.current := fun h => ⟨fun x hx _ => h.none x hx, h.owed, h.current⟩
  cases e with
  | create t p =>
    simp only [step] at hs
    split_ifs at hs with hn
    · cases hs
      have hc : (create s t p).heap.container = Function.update s.heap.container t
          (some (.ready (if maxPriorities ≤ p then maxPriorities - 1 else p))) := by
        unfold create
        simp only [addReady_container, Function.update_self]
      refine ⟨fun x hx hp => ?_, fun h => ?_, rfl⟩
      · have hxt : x ≠ t := by rintro rfl; exact hp p rfl
        rw [hc, Function.update_of_ne hxt, hx]
      · rcases h with h | h
        · exact .inl (by simp [create, addReady, h])
        · exact .inr h
    · cases hs; exact done (.refl s)
  | block w =>
    simp only [step] at hs
    split_ifs at hs
    · exact done (block_soft hs)
    · cases hs; exact done (.refl s)
  | tick ts =>
    simp only [step] at hs
    split_ifs at hs
    · split at hs
      · cases hs
      · rename_i r s1 ht
        cases hs
        exact done (pend_soft (tickBody_soft ht) r)
    · cases hs; exact done (pend_soft (.refl s) _)
  | event t a =>
    simp only [step] at hs
    split_ifs at hs
    · split at hs
      · cases hs
      · rename_i w s1 ht
        cases hs
        exact done (pend_soft (event_soft ht) _)
    · cases hs; exact done (.refl s)
  | notify t =>
    simp only [step] at hs
    split_ifs at hs
    · split at hs
      · cases hs
      · rename_i s1 ht
        cases hs
        exact done (pend_soft (wake_soft ht) _)
    · cases hs; exact done (.refl s)
  | suspendAll => cases hs; exact done ⟨fun _ h => h, fun h => h, rfl⟩
  | resumeAll tss =>
    simp only [step] at hs
    split_ifs at hs
    · cases hs; exact done (.refl s)
    · unfold resumeAll at hs
      simp only at hs
      split_ifs at hs
      · cases hs; exact done ⟨fun _ h => h, fun h => h, rfl⟩
      · split at hs
        · cases hs
        · rename_i s1 hd
          split at hs
          · cases hs
          · rename_i s2 hm
            cases hs
            have h0 : Soft s s1 := by
              have k := drain_soft _ hd
              exact ⟨k.none, k.owed, k.current⟩
            exact done (pend_soft (h0.trans (makeUp_soft _ hm)) _)
  | inherit t =>
    simp only [step] at hs
    split_ifs at hs
    · cases hs; exact done (.refl s)
    · unfold inherit at hs
      split_ifs at hs
      · exact done (moveReady_soft hs)
      · cases hs; exact done ⟨fun _ h => h, fun h => h, rfl⟩
      · cases hs; exact done (.refl s)
  | give w =>
    simp only [step] at hs
    split_ifs at hs
    · unfold give at hs
      split at hs
      · cases hs
      · rename_i r s1 hd
        have h1 : Soft s s1 := by
          unfold disinherit at hd
          split_ifs at hd
          · split at hd
            · cases hd
            · rename_i s2 hm
              obtain ⟨_, rfl⟩ := Prod.mk.inj (Except.ok.inj hd)
              exact moveReady_soft hm
          · obtain ⟨_, rfl⟩ := Prod.mk.inj (Except.ok.inj hd)
            exact .refl s
        cases w with
        | none => cases hs; exact done (pend_soft h1 _)
        | some t =>
          simp only at hs
          split at hs
          · cases hs
          · rename_i w s2 he
            cases hs
            exact done (pend_soft (h1.trans (event_soft he)) _)
    · cases hs; exact done (.refl s)
  | timeout t p =>
    simp only [step] at hs
    split_ifs at hs
    · unfold timeout at hs
      simp only at hs
      generalize (if s.base t < p then p else s.base t) = q at hs
      by_cases h2 : s.prio t = q
      · rw [if_pos h2] at hs; cases hs; exact done (.refl s)
      · rw [if_neg h2] at hs
        split_ifs at hs
        · split at hs
          · cases hs
          · rename_i s1 ht
            cases hs
            obtain ⟨k1, k2⟩ := takeReady_soft ht
            have k3 : Soft s s1 := ⟨k1.none, k1.owed, k1.current⟩
            exact done (addReady_soft k3 k2)
        · cases hs; exact done ⟨fun _ h => h, fun h => h, rfl⟩
    · cases hs; exact done (.refl s)
  | delete =>
    simp only [step] at hs
    split_ifs at hs with h
    · obtain ⟨k1, k2, k3, k4, k5, k6, k7, k8⟩ := delete_ok hs
      refine done ⟨fun x hx => ?_, fun _ => .inl k7, k4⟩
      have : x ≠ s.current := by
        rintro rfl
        rw [isReady_spec h.1] at hx; cases hx
      rw [k2 x this, hx]
    · cases hs; exact done (.refl s)
  | reap =>
    simp only [step] at hs
    split_ifs at hs with h
    · have hy : s'.yieldPending = s.yieldPending := by
        unfold reap at hs
        split_ifs at hs
        · cases hs; rfl
        · split at hs
          · cases hs
          · split at hs
            · cases hs
            · cases hs; rfl
      rcases reap_ok I hs with rfl | ⟨y, k1, k2, k3, k4, k5, k6, k7, k8, k9, _⟩
      · exact done (.refl _)
      · refine done ⟨fun x hx => ?_, fun hx => ?_, k5⟩
        · by_cases hxy : x = y
          · rw [hxy, k4]
          · rw [k3 x hxy, hx]
        · rcases hx with hx | hx
          · exact .inl (by rw [k8]; exact hx)
          · exact .inr (by rw [hy]; exact hx)
    · cases hs; exact done (.refl s)
  | yield => cases hs; exact done ⟨fun _ h => h, fun _ => .inl rfl, rfl⟩
  | switch =>
    simp only [step] at hs
    split_ifs at hs with h
    · unfold switchContext at hs
      split_ifs at hs with h0
      · cases hs; exact done ⟨fun _ h => h, fun _ => .inr rfl, rfl⟩
      · exact absurd ⟨rfl, h, by simpa using h0⟩ hsw
    · cases hs; exact done (.refl s)

/-- A task that has ended, or does not exist, stays so unless it is created. -/
theorem gone_step {s s' : St} {c : Lists} (I : Inv False s c) {e : Ev} (hs : step s e = .ok s') {t : Nat}
    (ht : ¬ Alive s t) (hc : ∀ p, e ≠ .create t p) : ¬ Alive s' t := by
  have hcases : s.heap.container t = none ∨ s.heap.container t = some .ended := by
    by_contra hcon
    exact ht ⟨fun h => hcon (.inl h), fun h => hcon (.inr h)⟩
  by_cases hsw : Switches s e
  · have hh := hsw.1
    subst hh
    rintro ⟨h1, h2⟩
    refine ht ?_
    have : s'.heap.container t = s.heap.container t := by
      simp only [step] at hs
      rw [if_pos hsw.2.1] at hs
      unfold switchContext at hs
      rw [if_neg (by simpa using hsw.2.2)] at hs
      unfold select at hs
      simp only at hs
      split_ifs at hs
      split at hs
      · cases hs
      · rename_i x h hn
        cases hs
        show h.container t = s.heap.container t
        unfold nextEntry at hn
        simp only at hn
        split at hn
        · obtain ⟨_, rfl⟩ := Prod.mk.inj (Except.ok.inj hn); rfl
        · cases hn
    unfold Alive; rw [← this]; exact ⟨h1, h2⟩
  rcases hcases with hn | hn
  · exact fun h => h.1 ((step_soft I hs hsw).1 t hn hc)
  · by_cases hd : e = .delete
    · subst hd
      simp only [step] at hs
      split_ifs at hs with h
      · obtain ⟨k1, k2, k3, _⟩ := delete_ok hs
        have : t ≠ s.current := by
          rintro rfl
          rw [isReady_spec h.1] at hn; cases hn
        exact fun h => h.2 (by rw [k2 t this, hn])
      · cases hs; exact ht
    by_cases hre : e = .reap
    · subst hre
      simp only [step] at hs
      split_ifs at hs with h
      · rcases reap_ok I hs with rfl | ⟨y, k1, k2, k3, k4, _⟩
        · exact ht
        · by_cases hxy : t = y
          · exact fun h => h.1 (by rw [hxy, k4])
          · exact fun h => h.2 (by rw [k3 t hxy, hn])
      · cases hs; exact ht
    obtain ⟨s1, c1, h1, I1, h2⟩ := step_spec0 (j := False) I.toInv0 e hd hre False.elim
    rw [hs] at h1
    cases h1
    rw [if_neg hsw] at h2
    have hm := ((I.core.world .ended).mem t).mp hn
    rw [← h2.2] at hm
    exact fun h => h.2 (((I1.core.world .ended).mem t).mpr hm)

/-! ## C161 -/

/-- The call succeeds, leaves every other task alone and asks for a change of tasks. -/
theorem C161_ends {s : St} (h : Reached s) (hc : CanRun s s.current) (hi : s.current ≠ idle) (h0 : s.susp = 0) :
    ∃ s', step s .delete = .ok s' ∧ ¬ Alive s' s.current ∧ ¬ CanRun s' s.current ∧ s'.pend = true ∧
      OthersKeep s s' s.current := by
  obtain ⟨c, I⟩ := h.inv
  obtain ⟨s', c', h1, _⟩ := step_spec (j := False) I .delete False.elim
  have hr : isReady s s.current = true := by
    obtain ⟨p, hp⟩ := hc
    unfold isReady
    rw [hp, I.core.prios _ _ hp]; simp
  have h2 := h1
  simp only [step] at h2
  rw [if_pos ⟨hr, hi, h0⟩] at h2
  obtain ⟨k1, k2, k3, k4, k5, k6, k7, k8⟩ := delete_ok h2
  refine ⟨s', h1, fun h => h.2 k3, ?_, k7, k2, k5, k6, k4, k1, k8⟩
  rintro ⟨p, hp⟩
  rw [k3] at hp; cases hp

theorem gone_run {t : Nat} : ∀ (es : List Ev) {s s' : St} (_ : Reached s) (_ : ¬ Alive s t) (_ : NotCreated t es)
    (_ : run s es = .ok s'), ¬ Alive s' t ∧ (s.current ≠ t → s'.current ≠ t) ∧ (Switched s es → s'.current ≠ t) ∧
      (Owed s → s'.current = t → Owed s')
  | [], s, s', h, ht, _, hr => by
    rw [run] at hr; cases hr
    exact ⟨ht, fun h => h, fun h => absurd h id, fun h _ => h⟩
  | e :: es, s, s', h, ht, hn, hr => by
    rw [run] at hr
    obtain ⟨c, I⟩ := h.inv
    rcases hst : step s e with u | s1
    · rw [hst] at hr; cases hr
    · rw [hst] at hr
      simp only at hr
      have ht1 : ¬ Alive s1 t := gone_step I hst ht (fun p hp => hn p (by simp [hp]))
      obtain ⟨a1, a2, a3, a4⟩ := gone_run es (h.step hst) ht1 (fun p hp => hn p (by simp [hp])) hr
      by_cases hsw : Switches s e
      · obtain ⟨⟨⟨p, hp⟩, _⟩, _⟩ := C106_switch_right h hst hsw
        have hne : s1.current ≠ t := by
          rintro rfl
          exact ht1 ⟨by rw [hp]; simp, by rw [hp]; simp⟩
        have := a2 hne
        exact ⟨a1, fun _ => this, fun _ => this, fun _ h => absurd h this⟩
      · obtain ⟨_, b2, b3⟩ := step_soft I hst hsw
        refine ⟨a1, fun hx => a2 (by rw [b3]; exact hx), fun hx => ?_, fun hx => a4 (b2 hx)⟩
        rcases hx with hx | hx
        · exact absurd hx hsw
        · exact a3 (hx s1 hst)

/-- From then on, whatever happens, the task cannot run; until the processor changes tasks that change is
owed, and afterwards the task is never the running one. Only creating it again brings it back. -/
theorem C161_never_again {s s1 s' : St} {es : List Ev} (h : Reached s) (hc : CanRun s s.current)
    (hi : s.current ≠ idle) (h0 : s.susp = 0) (h1 : step s .delete = .ok s1) (hn : NotCreated s.current es)
    (hr : run s1 es = .ok s') :
    ¬ CanRun s' s.current ∧ (Switched s1 es → s'.current ≠ s.current) ∧ (s'.current = s.current → Owed s') := by
  obtain ⟨s2, h2, k1, k2, k3, k4⟩ := C161_ends h hc hi h0
  rw [h1] at h2
  cases h2
  obtain ⟨a1, _, a3, a4⟩ := gone_run es (h.step h1) k1 hn hr
  refine ⟨?_, a3, a4 (.inl k3)⟩
  rintro ⟨p, hp⟩
  exact a1 ⟨by rw [hp]; simp, by rw [hp]; simp⟩

/-- The count that the idle task looks at is always the number of tasks that have ended and have not been
cleared up. -/
theorem C161_counted {s : St} (h : Reached s) :
    ∃ l : List Nat, l.Nodup ∧ (∀ t, t ∈ l ↔ s.heap.container t = some .ended) ∧ s.cleanup = l.length := by
  obtain ⟨c, I⟩ := h.inv
  exact ⟨(c .ended).all, nodup_all I.core.world .ended, fun t => ((I.core.world .ended).mem t).symm, I.clean⟩

/-- The idle task, given the processor, clears up every ended task and then stops: it never reads an empty
list, leaves every living task and the processor as they are, and the places of the ended tasks can be used for new
ones. -/
theorem C161_cleared {s : St} (h : Reached s) (hc : s.current = idle) :
    ∃ s', run s (List.replicate s.cleanup .reap) = .ok s' ∧ s'.cleanup = 0 ∧
      (∀ t, Alive s t → s'.heap.container t = s.heap.container t) ∧ (∀ t, ¬ Alive s t → s'.heap.container t = none) ∧
      s'.current = s.current ∧ s'.prio = s.prio ∧ s'.pend = s.pend ∧ s'.susp = s.susp ∧ s'.pending = s.pending := by
  generalize hn : s.cleanup = n
  induction n generalizing s with
  | zero =>
    refine ⟨s, rfl, hn, fun _ _ => rfl, fun t ht => ?_, rfl, rfl, rfl, rfl, rfl⟩
    obtain ⟨l, _, hl, hlen⟩ := C161_counted h
    have : l = [] := List.eq_nil_of_length_eq_zero (by omega)
    subst this
    by_contra hcon
    exact ht ⟨hcon, fun he => by have := (hl t).mpr he; cases this⟩
  | succ n ih =>
    obtain ⟨c, I⟩ := h.inv
    obtain ⟨s1, c1, h1, I1, _⟩ := step_spec (j := False) I .reap False.elim
    have h2 := h1
    simp only [step] at h2
    rw [if_pos hc] at h2
    have hr1 : Reached s1 := h.step h1
    rcases reap_ok I h2 with e | ⟨x, k1, k2, k3, k4, k5, k6, k7, k8, k9, k10⟩
    · exfalso
      unfold reap at h2
      rw [if_neg (by omega)] at h2
      split at h2
      · cases h2
      · split at h2
        · cases h2
        · cases h2
          have := congrArg St.cleanup e
          simp only at this
          omega
    · obtain ⟨s', r1, r2, r3, r4, r5, r6, r7, r8, r9⟩ := ih hr1 (by rw [k5]; exact hc) (by omega)
      have hxa : ∀ t, Alive s t ↔ Alive s1 t := by
        intro t
        unfold Alive
        by_cases htx : t = x
        · subst htx; rw [k2, k4]; simp
        · rw [k3 t htx]
      refine ⟨s', ?_, r2, fun t ht => ?_, fun t ht => r4 t (fun h => ht ((hxa t).mpr h)), r5.trans k5, r6.trans k6,
        r7.trans k8, r8.trans k9, r9.trans k1⟩
      · rw [List.replicate_succ, run, h1]; exact r1
      · have htx : t ≠ x := by rintro rfl; exact ht.2 k2
        rw [r3 t ((hxa t).mp ht), k3 t htx]

/-- The start-up task (1) creates two tasks and ends; the processor goes to the higher of them, and when both
wait, the idle task clears up. -/
def startUp : List Ev := [.create 2 3, .create 3 2, .delete]

example : (match run (start (fun _ => .mark .suspended) [(1, 6)]) startUp with
    | .ok s => decide (s.current = 1 ∧ s.pend = true ∧ s.heap.container 1 = some .ended ∧ s.cleanup = 1)
    | .error _ => false) = true := by decide +kernel

example : (match run (start (fun _ => .mark .suspended) [(1, 6)])
      (startUp ++ [.switch, .event 1 true, .notify 1, .tick [1]]) with
    | .ok s => decide (s.current = 2 ∧ isReady s 1 = false ∧ s.heap.container 1 = some .ended) | .error _ => false) = true := by
  decide +kernel

example : (match run (start (fun _ => .mark .suspended) [(1, 6)])
      (startUp ++ [.switch, .block .forever, .switch, .block .forever, .switch, .reap]) with
    | .ok s => decide (s.current = 0 ∧ s.heap.container 1 = none ∧ s.cleanup = 0) | .error _ => false) = true := by
  decide +kernel

end Verif.Ready
