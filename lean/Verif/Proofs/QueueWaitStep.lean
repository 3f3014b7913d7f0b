import Verif.Proofs.QueueWait

set_option autoImplicit false

/-!
# Every event preserves the invariant of waiting on a queue
-/

namespace Verif.QueueWait

variable {n : Nat} {c : Cfg n} {s : St n} {t : Fin n}

theorem inv_attempt_send (I : Inv c s) (h : s.susp = none) (hw : waitPc .recv (s.pc t) = false)
    (hS : t ∉ s.waitS) : Inv c (attempt c s t .send) := by
  obtain ⟨u1, u2, u3⟩ := tx_un_of_none I h
  have hcap := I.cap
  simp only [attempt]
  split_ifs with h1 h2
  · refine inv_free I h (t := t) (p := .idle) rfl rfl h rfl rfl (by simp only [ret]; omega) ?_ ?_
    · refine (I.R.move (t := t) (p := .idle) (by simp [hw]) (by simp)).wake ?_
      intro x hx
      by_cases hxt : x = t
      · subst hxt; simp at hx
      · rw [Function.update_of_ne hxt] at hx; exact u3 x _ hx
    · exact I.S.retry hS (by simp) (by simp only [ret]; omega)
  · refine inv_free I h (t := t) (p := .suspend .send) rfl rfl h rfl rfl hcap ?_ ?_
    · exact I.R.move (by simp [hw]) (by simp)
    · exact I.S.retry hS (by simp) (by simp only [go]; omega)
  · refine inv_free I h (t := t) (p := .idle) rfl rfl h rfl rfl hcap ?_ ?_
    · exact I.R.move (by simp [hw]) (by simp)
    · exact I.S.retry hS (by simp) (by simp only [ret]; omega)

theorem inv_attempt_recv (I : Inv c s) (h : s.susp = none) (hw : waitPc .send (s.pc t) = false)
    (hR : t ∉ s.waitR) : Inv c (attempt c s t .recv) := by
  obtain ⟨u1, u2, u3⟩ := tx_un_of_none I h
  have hcap := I.cap
  simp only [attempt]
  split_ifs with h1 h2
  · refine inv_free I h (t := t) (p := .idle) rfl rfl h rfl rfl (by simp only [ret]; omega) ?_ ?_
    · exact I.R.retry hR (by simp) (by simp only [ret]; omega)
    · have := (I.S.move (t := t) (p := .idle) (by simp [hw]) (by simp)).wake (by
        intro x hx
        by_cases hxt : x = t
        · subst hxt; simp at hx
        · rw [Function.update_of_ne hxt] at hx; exact u3 x _ hx)
      exact this.less (by simp only [ret]; omega)
  · refine inv_free I h (t := t) (p := .suspend .recv) rfl rfl h rfl rfl hcap ?_ ?_
    · exact I.R.retry hR (by simp) (by simp only [go]; omega)
    · exact I.S.move (by simp [hw]) (by simp)
  · refine inv_free I h (t := t) (p := .idle) rfl rfl h rfl rfl hcap ?_ ?_
    · exact I.R.retry hR (by simp) (by simp only [ret]; omega)
    · exact I.S.move (by simp [hw]) (by simp)

theorem not_mem_S (I : Inv c s) (h : waitPc .send (s.pc t) = false) : t ∉ s.waitS := fun hm => by
  rw [I.S.mem t hm] at h; cases h

theorem not_mem_R (I : Inv c s) (h : waitPc .recv (s.pc t) = false) : t ∉ s.waitR := fun hm => by
  rw [I.R.mem t hm] at h; cases h

/-- A task resumes the scheduler and goes on at `p`. -/
theorem inv_resume (I : Inv c s) {d : Dir} {w : Why} (hpc : s.pc t = .resume d w) {p : Pc}
    {s' : St n} (hp : suspPc p = false) (h1 : s'.pc = Function.update s.pc t p)
    (hpl : ∀ d, p ≠ .place d)
    (hw : ∀ e, waitPc e (s.pc t) = true → waitPc e p = true)
    (h2 : s'.susp = none) (h3 : s'.txLock = s.txLock) (h4 : s'.rxLock = s.rxLock)
    (h5 : s'.msgs = s.msgs) (h6 : s'.waitR = s.waitR) (h7 : s'.waitS = s.waitS) : Inv c s' := by
  have hsu : s.susp = some t := (I.susp t).mp (by rw [hpc]; rfl)
  have ho : ∀ x, x ≠ t → suspPc (s.pc x) = false := fun x hx => other_not I hsu hx
  have hs : ∀ x, suspPc (s'.pc x) = false := by
    intro x
    rw [h1]
    by_cases hx : x = t
    · subst hx; simpa using hp
    · rw [Function.update_of_ne hx]; exact ho x hx
  have u1 : s.txLock = -1 := I.txUn fun x => by
    by_cases hx : x = t
    · subst hx; rw [hpc]; rfl
    · exact (not_tx_of (ho x hx)).1
  have u2 : s.rxLock = -1 := I.rxUn fun x => by
    by_cases hx : x = t
    · subst hx; rw [hpc]; rfl
    · exact (not_tx_of (ho x hx)).2
  refine ⟨h5 ▸ I.cap, ?_, ?_, ?_, ?_, ?_, ?_, ?_, ?_, ?_, ?_, ?_⟩
  · intro x; rw [hs x, h2]; simp
  · intro _; rw [h3, u1]
  · intro _; rw [h4, u2]
  · intro x hx; rw [(not_tx_of (hs x)).1] at hx; cases hx
  · intro x hx; rw [(not_tx_of (hs x)).2] at hx; cases hx
  · rw [h3, u1]; omega
  · rw [h4, u2]; omega
  · intro _; rw [h3, u1]; decide
  · intro _; rw [h4, u2]; decide
  · rw [h1, h5, h3, h6]; exact I.R.move (hw _) (fun h => absurd h (hpl _))
  · rw [h1, h5, h4, h7]; exact I.S.move (hw _) (fun h => absurd h (hpl _))

theorem inv_taskStep (I : Inv c s) (hr : s.susp = none ∨ s.susp = some t) (expired : Bool) :
    Inv c (taskStep c s t expired) := by
  have hfree : suspPc (s.pc t) = false → s.susp = none := fun h => by
    rcases hr with hr | hr
    · exact hr
    · rw [(I.susp t).mpr hr] at h; cases h
  have hheld : suspPc (s.pc t) = true → s.susp = some t := fun h => (I.susp t).mp h
  unfold taskStep
  cases hpc : s.pc t with
  | idle => exact I
  | try_ d =>
      have h0 := hfree (by rw [hpc]; rfl)
      cases d with
      | send => exact inv_attempt_send I h0 (by rw [hpc]; rfl) (not_mem_S I (by rw [hpc]; rfl))
      | recv => exact inv_attempt_recv I h0 (by rw [hpc]; rfl) (not_mem_R I (by rw [hpc]; rfl))
  | suspend d =>
      have h0 := hfree (by rw [hpc]; rfl)
      obtain ⟨u1, u2, u3⟩ := tx_un_of_none I h0
      have ho : ∀ x, suspPc (s.pc x) = false := fun x => by
        have := I.susp x; rw [h0] at this; simpa using this
      have hcap := I.cap
      refine ⟨I.cap, ?_, ?_, ?_, ?_, ?_, ?_, ?_, ?_, ?_, ?_, ?_⟩
      · intro x
        simp only [go]
        by_cases hx : x = t
        · subst hx; simp [suspPc]
        · rw [Function.update_of_ne hx, ho x]; simp; exact fun h => hx h.symm
      · intro _; exact u1
      · intro _; exact u2
      · intro x hx
        simp only [go] at hx
        by_cases hxt : x = t
        · subst hxt; simp [txLockedPc] at hx
        · rw [Function.update_of_ne hxt, (not_tx_of (ho x)).1] at hx; cases hx
      · intro x hx
        simp only [go] at hx
        by_cases hxt : x = t
        · subst hxt; simp [rxLockedPc] at hx
        · rw [Function.update_of_ne hxt, (not_tx_of (ho x)).2] at hx; cases hx
      · simp only [go, u1]; omega
      · simp only [go, u2]; omega
      · intro _; simp only [go, u1]; decide
      · intro _; simp only [go, u2]; decide
      · exact I.R.move (by rw [hpc]; simp [waitPc]) (by simp)
      · exact I.S.move (by rw [hpc]; simp [waitPc]) (by simp)
  | lock d =>
      have h0 := hheld (by rw [hpc]; rfl)
      have u1 : s.txLock = -1 := I.txUn fun x => by
        by_cases hx : x = t
        · subst hx; rw [hpc]; rfl
        · exact (not_tx_of (other_not I h0 hx)).1
      have u2 : s.rxLock = -1 := I.rxUn fun x => by
        by_cases hx : x = t
        · subst hx; rw [hpc]; rfl
        · exact (not_tx_of (other_not I h0 hx)).2
      refine inv_held I h0 (p := .check d) rfl rfl rfl rfl (.inl ⟨rfl, ?_, .inr ?_⟩)
        (.inl ⟨rfl, ?_, .inr ?_⟩) ?_ ?_
      · simp [u1]
      · simp [u1]
      · simp [u2]
      · simp [u2]
      · refine (I.R.move (t := t) (p := .check d) (by rw [hpc]; simp [waitPc]) (by simp)).lockLe ?_
        simp [u1]
      · refine (I.S.move (t := t) (p := .check d) (by rw [hpc]; simp [waitPc]) (by simp)).lockLe ?_
        simp [u2]
  | check d =>
      have h0 := hheld (by rw [hpc]; rfl)
      have t0 := I.tx0 t (by rw [hpc]; rfl)
      have r0 := I.rx0 t (by rw [hpc]; rfl)
      have hcap := I.cap
      have goUn : ∀ d w, w ≠ .placed → Inv c (go s t (.unlockTx d w)) := by
        intro d w hw
        refine inv_held I h0 (p := .unlockTx d w) rfl rfl rfl rfl (.inl ⟨rfl, t0, .inl rfl⟩)
          (.inl ⟨rfl, r0, .inl rfl⟩) ?_ ?_
        · exact I.R.move (by rw [hpc]; simp [waitPc]) (by simp)
        · exact I.S.move (by rw [hpc]; simp [waitPc]) (by simp)
      have goPl : ∀ d, (d = .send → s.msgs = c.len) → (d = .recv → s.msgs = 0) →
          Inv c (go s t (.place d)) := by
        intro d hs hr
        refine inv_held I h0 (p := .place d) rfl rfl rfl rfl (.inl ⟨rfl, t0, .inl rfl⟩)
          (.inl ⟨rfl, r0, .inl rfl⟩) ?_ ?_
        · refine I.R.move (by rw [hpc]; simp [waitPc]) ?_
          intro h
          have := hr (by simpa using h)
          omega
        · refine I.S.move (by rw [hpc]; simp [waitPc]) ?_
          intro h
          have := hs (by simpa using h)
          omega
      cases expired with
      | true => exact goUn _ _ (by simp)
      | false =>
        cases d with
        | send =>
            simp only [Bool.false_eq_true, if_false]
            split_ifs with hm
            · exact goPl _ (fun _ => hm) (by simp)
            · exact goUn _ _ (by simp)
        | recv =>
            simp only [Bool.false_eq_true, if_false]
            split_ifs with hm
            · exact goPl _ (by simp) (fun _ => hm)
            · exact goUn _ _ (by simp)
  | place d =>
      have h0 := hheld (by rw [hpc]; rfl)
      have t0 := I.tx0 t (by rw [hpc]; rfl)
      have r0 := I.rx0 t (by rw [hpc]; rfl)
      cases d with
      | send =>
          refine inv_held I h0 (p := .unlockTx .send .placed) rfl rfl rfl rfl (.inl ⟨rfl, t0, .inl rfl⟩)
            (.inl ⟨rfl, r0, .inl rfl⟩) ?_ ?_
          · exact I.R.move (by rw [hpc]; simp [waitPc]) (by simp)
          · exact I.S.place hpc rfl
      | recv =>
          refine inv_held I h0 (p := .unlockTx .recv .placed) rfl rfl rfl rfl (.inl ⟨rfl, t0, .inl rfl⟩)
            (.inl ⟨rfl, r0, .inl rfl⟩) ?_ ?_
          · exact I.R.place hpc rfl
          · exact I.S.move (by rw [hpc]; simp [waitPc]) (by simp)
  | unlockTx d w =>
      have h0 := hheld (by rw [hpc]; rfl)
      have t0 := I.tx0 t (by rw [hpc]; rfl)
      have r0 := I.rx0 t (by rw [hpc]; rfl)
      have hpl : ∀ x e, s.pc x ≠ .place e := by
        intro x e hx
        by_cases hxt : x = t
        · subst hxt; rw [hpc] at hx; cases hx
        · have := other_not I h0 hxt; rw [hx] at this; simp [suspPc] at this
      refine inv_held I h0 (p := .unlockRx d w) rfl rfl rfl rfl (.inr ⟨rfl, rfl⟩)
        (.inl ⟨rfl, r0, .inl rfl⟩) ?_ ?_
      · have hR : Side .recv s.pc s.msgs (s.txLock.toNat : Int) s.waitR :=
          I.R.lockLe (by omega)
        refine (Side.wakeMany (fun x => hpl x _) _ hR).move ?_ (by simp)
        rw [hpc]; cases w <;> simp [waitPc]
      · refine I.S.move ?_ (by simp)
        rw [hpc]; cases w <;> simp [waitPc]
  | unlockRx d w =>
      have h0 := hheld (by rw [hpc]; rfl)
      have r0 := I.rx0 t (by rw [hpc]; rfl)
      have hpl : ∀ x e, s.pc x ≠ .place e := by
        intro x e hx
        by_cases hxt : x = t
        · subst hxt; rw [hpc] at hx; cases hx
        · have := other_not I h0 hxt; rw [hx] at this; simp [suspPc] at this
      have u1 : s.txLock = -1 := I.txUn fun x => by
        by_cases hx : x = t
        · subst hx; rw [hpc]; rfl
        · exact (not_tx_of (other_not I h0 hx)).1
      refine inv_held I h0 (p := .resume d w) rfl rfl rfl rfl (.inr ⟨rfl, u1⟩)
        (.inr ⟨rfl, rfl⟩) ?_ ?_
      · refine I.R.move ?_ (by simp)
        rw [hpc]; cases w <;> simp [waitPc]
      · have hS : Side .send s.pc (c.len - s.msgs) (s.rxLock.toNat : Int) s.waitS :=
          I.S.lockLe (by omega)
        refine (Side.wakeMany (fun x => hpl x _) _ hS).move ?_ (by simp)
        rw [hpc]; cases w <;> simp [waitPc]
  | resume d w =>
      cases w with
      | placed =>
          refine inv_resume I hpc (p := .blocked d) rfl rfl (by simp) ?_ rfl rfl rfl rfl rfl rfl
          intro e; rw [hpc]; simp [waitPc]
      | retry =>
          refine inv_resume I hpc (p := .try_ d) rfl rfl (by simp) ?_ rfl rfl rfl rfl rfl rfl
          intro e; rw [hpc]; simp [waitPc]
      | expired =>
          cases d with
          | send =>
              refine inv_resume I hpc (p := .idle) rfl rfl (by simp) ?_ rfl rfl rfl rfl rfl rfl
              intro e; rw [hpc]; simp [waitPc]
          | recv =>
              refine inv_resume I hpc (p := .last) rfl rfl (by simp) ?_ rfl rfl rfl rfl rfl rfl
              intro e; rw [hpc]; simp [waitPc]
  | blocked d =>
      have h0 := hfree (by rw [hpc]; rfl)
      cases d with
      | send =>
          simp only
          split_ifs with hm
          · exact I
          · exact inv_attempt_send I h0 (by rw [hpc]; rfl) hm
      | recv =>
          simp only
          split_ifs with hm
          · exact I
          · exact inv_attempt_recv I h0 (by rw [hpc]; rfl) hm
  | last =>
      have h0 := hfree (by rw [hpc]; rfl)
      simp only
      split_ifs
      · refine inv_free I h0 (t := t) (p := .idle) rfl rfl h0 rfl rfl I.cap ?_ ?_
        · exact I.R.move (by rw [hpc]; simp [waitPc]) (by simp)
        · exact I.S.move (by rw [hpc]; simp [waitPc]) (by simp)
      · refine inv_free I h0 (t := t) (p := .try_ .recv) rfl rfl h0 rfl rfl I.cap ?_ ?_
        · exact I.R.move (by rw [hpc]; simp [waitPc]) (by simp)
        · exact I.S.move (by rw [hpc]; simp [waitPc]) (by simp)

theorem int8_eq {x : Int} (h : -128 ≤ x) (h' : x ≤ 127) : int8 x = x := by
  unfold int8
  rw [Int.bmod_def]
  split_ifs <;> omega

theorem no_place_of_lock {c : Cfg n} {s : St n} (I : Inv c s) (h : s.txLock = -1 ∨ s.rxLock = -1)
    (x : Fin n) (d : Dir) : s.pc x ≠ .place d := by
  intro hx
  have t0 := I.tx0 x (by rw [hx]; rfl)
  have r0 := I.rx0 x (by rw [hx]; rfl)
  omega

theorem lock_tx_nonneg (I : Inv c s) (h : s.txLock ≠ -1) : 0 ≤ s.txLock := by
  by_contra hn
  apply h
  apply I.txUn
  intro x
  cases hp : txLockedPc (s.pc x) with
  | false => rfl
  | true => exact absurd (I.tx0 x hp) hn

theorem lock_rx_nonneg (I : Inv c s) (h : s.rxLock ≠ -1) : 0 ≤ s.rxLock := by
  by_contra hn
  apply h
  apply I.rxUn
  intro x
  cases hp : rxLockedPc (s.pc x) with
  | false => rfl
  | true => exact absurd (I.rx0 x hp) hn

theorem inv_isrSend (hc : c.Fine) (I : Inv c s) : Inv c (step c s .isrSend) := by
  simp only [step]
  have hcap := I.cap
  have a1 := I.txLe
  have a2 := I.rxLe
  have a3 := I.txNo
  have a4 := I.rxNo
  have h127 := hc.short
  split_ifs with h1 h2
  · have ho : c.isrRecvs = false := by
      rcases hc.oneWay with h | h
      · rw [h1.1] at h; cases h
      · exact h
    have b4 := a4 ho
    refine ⟨by simp only; omega, I.susp, I.txUn, I.rxUn, I.tx0, I.rx0, ?_, ?_, a3, a4, ?_, ?_⟩
    · simp only; omega
    · simp only; omega
    · exact I.R.wake (fun x => no_place_of_lock I (.inl h2) x _)
    · exact I.S.less (by simp only; omega)
  · have ho : c.isrRecvs = false := by
      rcases hc.oneWay with h | h
      · rw [h1.1] at h; cases h
      · exact h
    have b4 := a4 ho
    have h0 := lock_tx_nonneg I h2
    have e8 : int8 (s.txLock + 1) = s.txLock + 1 := int8_eq (by omega) (by omega)
    refine ⟨by simp only; omega, I.susp, ?_, I.rxUn, ?_, I.rx0, ?_, ?_, ?_, a4, ?_, ?_⟩
    · intro hall; exact absurd (I.txUn hall) h2
    · intro x hx; simp only [e8]; omega
    · simp only [e8]; omega
    · simp only; omega
    · intro h; rw [h1.1] at h; cases h
    · simp only [e8]; exact I.R.count h0
    · exact I.S.less (by simp only; omega)
  · exact I

theorem inv_isrRecv (hc : c.Fine) (I : Inv c s) : Inv c (step c s .isrRecv) := by
  simp only [step]
  have hcap := I.cap
  have a1 := I.txLe
  have a2 := I.rxLe
  have a3 := I.txNo
  have a4 := I.rxNo
  have h127 := hc.short
  split_ifs with h1 h2
  · have ho : c.isrSends = false := by
      rcases hc.oneWay with h | h
      · exact h
      · rw [h1.1] at h; cases h
    have b3 := a3 ho
    refine ⟨by simp only; omega, I.susp, I.txUn, I.rxUn, I.tx0, I.rx0, ?_, ?_, a3, a4, ?_, ?_⟩
    · simp only; omega
    · simp only; omega
    · exact I.R.less (by simp only; omega)
    · exact (I.S.wake (fun x => no_place_of_lock I (.inr h2) x _)).less (by simp only; omega)
  · have ho : c.isrSends = false := by
      rcases hc.oneWay with h | h
      · exact h
      · rw [h1.1] at h; cases h
    have b3 := a3 ho
    have h0 := lock_rx_nonneg I h2
    have e8 : int8 (s.rxLock + 1) = s.rxLock + 1 := int8_eq (by omega) (by omega)
    refine ⟨by simp only; omega, I.susp, I.txUn, ?_, I.tx0, ?_, ?_, ?_, a3, ?_, ?_, ?_⟩
    · intro hall; exact absurd (I.rxUn hall) h2
    · intro x hx; simp only [e8]; omega
    · simp only; omega
    · simp only [e8]; omega
    · intro h; rw [h1.1] at h; cases h
    · exact I.R.less (by simp only; omega)
    · simp only [e8]; exact (I.S.count h0).less (by omega)
  · exact I

theorem inv_step (hc : c.Fine) (I : Inv c s) (e : Ev n) : Inv c (step c s e) := by
  cases e with
  | call t d b =>
      simp only [step]
      split_ifs with h
      · refine inv_free I h.1 (t := t) (p := .try_ d) rfl rfl h.1 rfl rfl I.cap ?_ ?_
        · exact I.R.move (by rw [h.2]; simp [waitPc]) (by simp)
        · exact I.S.move (by rw [h.2]; simp [waitPc]) (by simp)
      · exact I
  | step t ex =>
      simp only [step]
      split_ifs with h
      · exact inv_taskStep I h ex
      · exact I
  | tick t =>
      simp only [step]
      split_ifs with h
      · split
        · exact ⟨I.cap, I.susp, I.txUn, I.rxUn, I.tx0, I.rx0, I.txLe, I.rxLe, I.txNo, I.rxNo, I.R, I.S.erase t⟩
        · exact ⟨I.cap, I.susp, I.txUn, I.rxUn, I.tx0, I.rx0, I.txLe, I.rxLe, I.txNo, I.rxNo, I.R.erase t, I.S⟩
        · exact I
      · exact I
  | isrSend => exact inv_isrSend hc I
  | isrRecv => exact inv_isrRecv hc I

theorem inv_run (hc : c.Fine) : ∀ (es : List (Ev n)) {s : St n}, Inv c s → Inv c (run c s es)
  | [], _, I => I
  | e :: es, _, I => inv_run hc es (inv_step hc I e)

end Verif.QueueWait
