import Verif.Spec.Locks
import Mathlib.Tactic.ByContra
import Mathlib.Data.Fintype.BigOperators
import Mathlib.Algebra.Order.BigOperators.Group.Finset

set_option autoImplicit false

/-!
# Consistent copies of the vehicle data, and absence of deadlock
-/

namespace Verif.LockProps

open Verif.Locks Verif.LockSpec

section General

variable {L F V : Type} [DecidableEq L] [DecidableEq F] {n : Nat}

theorem upd_same {A B : Type} [DecidableEq A] (g : A → B) (a : A) (b : B) : upd g a b a = b := by
  simp [upd]

theorem upd_other {A B : Type} [DecidableEq A] (g : A → B) (a x : A) (b : B) (h : x ≠ a) :
    upd g a b x = g x := by
  simp [upd, h]

omit [DecidableEq F] in
theorem heldAfter_append (h : List L) (p q : List (Instr L F V)) :
    heldAfter h (p ++ q) = heldAfter (heldAfter h p) q := by
  induction p generalizing h with
  | nil => rfl
  | cons i p ih => cases i <;> exact ih _

omit [DecidableEq F] in
theorem disc_append (g : F → L) (rk : L → Nat) (h : List L) (p q : List (Instr L F V))
    (hd : Disciplined g rk h (p ++ q)) : Disciplined g rk (heldAfter h p) q := by
  induction p generalizing h with
  | nil => exact hd
  | cons i p ih => cases i <;> exact ih _ hd.2

omit [DecidableEq F] in
theorem nodup_after (g : F → L) (rk : L → Nat) (h : List L) (p q : List (Instr L F V))
    (hd : Disciplined g rk h (p ++ q)) (hn : h.Nodup) : (heldAfter h p).Nodup := by
  induction p generalizing h with
  | nil => exact hn
  | cons i p ih =>
    cases i with
    | acq l =>
      refine ih _ hd.2 (List.nodup_cons.2 ⟨fun hm => ?_, hn⟩)
      exact absurd (hd.1 l hm) (Nat.lt_irrefl _)
    | rel l => exact ih _ hd.2 (hn.erase l)
    | wr f v => exact ih _ hd.2 hn
    | rd f => exact ih _ hd.2 hn

/-- Each task has executed a prefix of its program, and the mutexes it holds are
those the prefix took and did not give back. -/
def Inv (P : Fin n → List (Instr L F V)) (s : Sys L F V n) : Prop :=
  ∃ dn : Fin n → List (Instr L F V), (∀ t, P t = dn t ++ (s.th t).prog) ∧
    ∀ l t, s.holder l = some t ↔ l ∈ heldAfter [] (dn t)

omit [DecidableEq F] in
theorem inv_init (P : Fin n → List (Instr L F V)) (m : F → V) : Inv P (init P m) :=
  ⟨fun _ => [], fun _ => rfl, fun l t => by simp [init, heldAfter]⟩

/-- Every instruction a task executes removes the head of its program and leaves
the other tasks' programs alone. -/
theorem step_prog {t : Fin n} {s s' : Sys L F V n} (h : step t s = some s') :
    (∃ i, (s.th t).prog = i :: (s'.th t).prog) ∧ ∀ u, u ≠ t → s'.th u = s.th u := by
  unfold step at h
  split at h
  · exact absurd h (by simp)
  · next l p hp =>
    split at h
    · obtain rfl := Option.some.inj h
      exact ⟨⟨.acq l, by simp [upd_same, hp]⟩, fun u hu => upd_other _ _ _ _ hu⟩
    · exact absurd h (by simp)
  · next l p hp =>
    split at h
    · obtain rfl := Option.some.inj h
      exact ⟨⟨.rel l, by simp [upd_same, hp]⟩, fun u hu => upd_other _ _ _ _ hu⟩
    · exact absurd h (by simp)
  · next f v p hp =>
    obtain rfl := Option.some.inj h
    exact ⟨⟨.wr f v, by simp [upd_same, hp]⟩, fun u hu => upd_other _ _ _ _ hu⟩
  · next f p hp =>
    obtain rfl := Option.some.inj h
    exact ⟨⟨.rd f, by simp [upd_same, hp]⟩, fun u hu => upd_other _ _ _ _ hu⟩

theorem inv_step (g : F → L) (rk : L → Nat) (P : Fin n → List (Instr L F V))
    (hP : ∀ t, Disciplined g rk [] (P t)) {t : Fin n} {s s' : Sys L F V n}
    (hi : Inv P s) (h : step t s = some s') : Inv P s' := by
  obtain ⟨dn, h1, h2⟩ := hi
  obtain ⟨⟨i, hi1⟩, ho⟩ := step_prog h
  have hnd : ∀ u, (heldAfter [] (dn u)).Nodup := fun u =>
    nodup_after g rk [] (dn u) (s.th u).prog (h1 u ▸ hP u) List.nodup_nil
  refine ⟨upd dn t (dn t ++ [i]), fun u => ?_, fun l u => ?_⟩
  · by_cases hu : u = t
    · subst hu; rw [upd_same, h1 u, hi1]; simp
    · rw [upd_other _ _ _ _ hu, ho u hu]; exact h1 u
  · have hd : Disciplined g rk (heldAfter [] (dn t)) (i :: (s'.th t).prog) := by
      rw [← hi1]; exact disc_append g rk [] (dn t) _ (h1 t ▸ hP t)
    generalize (s'.th t).prog = q at hi1 hd
    unfold step at h
    rw [hi1] at h
    cases i with
    | acq k =>
      dsimp only at h
      split at h
      · next hk =>
        obtain rfl := Option.some.inj h
        have hkn : ∀ u, k ∉ heldAfter [] (dn u) := fun u hm => by
          rw [(h2 k u).2 hm] at hk; simp at hk
        by_cases hl : l = k
        · subst hl
          dsimp only
          rw [upd_same]
          by_cases hu : u = t
          · subst hu
            rw [upd_same, heldAfter_append]
            simp [heldAfter]
          · rw [upd_other _ _ _ _ hu]
            constructor
            · intro e; exact absurd (Option.some.inj e).symm hu
            · intro hm; exact absurd hm (hkn u)
        · dsimp only
          rw [upd_other _ _ _ _ hl, h2]
          by_cases hu : u = t
          · subst hu
            rw [upd_same, heldAfter_append]
            simp [heldAfter, hl]
          · rw [upd_other _ _ _ _ hu]
      · exact absurd h (by simp)
    | rel k =>
      dsimp only at h
      split at h
      · next hk =>
        obtain rfl := Option.some.inj h
        by_cases hl : l = k
        · subst hl
          dsimp only
          rw [upd_same]
          constructor
          · intro e; simp at e
          · intro hm
            exfalso
            by_cases hu : u = t
            · subst hu
              rw [upd_same, heldAfter_append] at hm
              simp only [heldAfter] at hm
              exact (List.Nodup.mem_erase_iff (hnd u)).1 hm |>.1 rfl
            · rw [upd_other _ _ _ _ hu] at hm
              rw [(h2 l u).2 hm] at hk
              exact hu (Option.some.inj hk)
        · dsimp only
          rw [upd_other _ _ _ _ hl, h2]
          by_cases hu : u = t
          · subst hu
            rw [upd_same, heldAfter_append]
            simp only [heldAfter]
            rw [List.Nodup.mem_erase_iff (hnd u)]
            exact ⟨fun hm => ⟨hl, hm⟩, fun hm => hm.2⟩
          · rw [upd_other _ _ _ _ hu]
      · exact absurd h (by simp)
    | wr f v =>
      obtain rfl := Option.some.inj h
      dsimp only
      rw [h2]
      by_cases hu : u = t
      · subst hu; rw [upd_same, heldAfter_append]; simp [heldAfter]
      · rw [upd_other _ _ _ _ hu]
    | rd f =>
      obtain rfl := Option.some.inj h
      dsimp only
      rw [h2]
      by_cases hu : u = t
      · subst hu; rw [upd_same, heldAfter_append]; simp [heldAfter]
      · rw [upd_other _ _ _ _ hu]

theorem inv_run (g : F → L) (rk : L → Nat) (P : Fin n → List (Instr L F V))
    (hP : ∀ t, Disciplined g rk [] (P t)) (es : List (Fin n)) {s s' : Sys L F V n}
    (hi : Inv P s) (h : run s es = some s') : Inv P s' := by
  induction es generalizing s with
  | nil => obtain rfl := Option.some.inj h; exact hi
  | cons t es ih =>
    unfold run at h
    split at h
    · exact absurd h (by simp)
    · next s1 hs => exact ih (inv_step g rk P hP hi hs) h

theorem run_append (s : Sys L F V n) (a b : List (Fin n)) :
    run s (a ++ b) = (run s a).bind fun s' => run s' b := by
  induction a generalizing s with
  | nil => rfl
  | cons t a ih =>
    rw [List.cons_append, run, run]
    cases step t s with
    | none => rfl
    | some s1 => exact ih s1

/-- Programs only get shorter. -/
theorem run_length (t : Fin n) (es : List (Fin n)) {s s' : Sys L F V n}
    (h : run s es = some s') : (s'.th t).prog.length ≤ (s.th t).prog.length := by
  induction es generalizing s with
  | nil => obtain rfl := Option.some.inj h; exact Nat.le_refl _
  | cons u es ih =>
    unfold run at h
    split at h
    · exact absurd h (by simp)
    · next s1 hs =>
      obtain ⟨⟨i, hi⟩, ho⟩ := step_prog hs
      refine Nat.le_trans (ih h) ?_
      by_cases hu : t = u
      · subst hu; rw [hi]; simp
      · rw [ho t hu]

/-- A task whose program did not get shorter did nothing. -/
theorem run_still (t : Fin n) (es : List (Fin n)) {s s' : Sys L F V n}
    (h : run s es = some s') (hl : (s'.th t).prog = (s.th t).prog) : s'.th t = s.th t := by
  induction es generalizing s with
  | nil => obtain rfl := Option.some.inj h; rfl
  | cons u es ih =>
    unfold run at h
    split at h
    · exact absurd h (by simp)
    · next s1 hs =>
      obtain ⟨⟨i, hi⟩, ho⟩ := step_prog hs
      by_cases hu : t = u
      · subst hu
        have h1 := run_length t es h
        rw [hl, hi, List.length_cons] at h1
        omega
      · rw [← ho t hu]
        exact ih h (by rw [hl, ho t hu])

/-- While `t` holds `k`, a step of another task changes neither the objects that
`k` protects nor the holder of `k`. -/
theorem other_step (g : F → L) (rk : L → Nat) (P : Fin n → List (Instr L F V))
    (hP : ∀ t, Disciplined g rk [] (P t)) {t u : Fin n} {k : L} {s s' : Sys L F V n}
    (hi : Inv P s) (hk : s.holder k = some t) (hu : u ≠ t) (h : step u s = some s') :
    s'.holder k = some t ∧ ∀ f, g f = k → s'.mem f = s.mem f := by
  obtain ⟨dn, h1, h2⟩ := hi
  have hku : k ∉ heldAfter [] (dn u) := fun hm => by
    rw [(h2 k u).2 hm] at hk; exact hu (Option.some.inj hk)
  have hd := disc_append g rk [] (dn u) (s.th u).prog (h1 u ▸ hP u)
  unfold step at h
  split at h
  · exact absurd h (by simp)
  · next l p hp =>
    split at h
    · next hl =>
      obtain rfl := Option.some.inj h
      have : k ≠ l := fun e => by subst e; rw [hk] at hl; simp at hl
      exact ⟨(upd_other _ _ _ _ this).trans hk, fun f _ => rfl⟩
    · exact absurd h (by simp)
  · next l p hp =>
    split at h
    · next hl =>
      obtain rfl := Option.some.inj h
      have : k ≠ l := fun e => by
        subst e; rw [hk] at hl; exact hu (Option.some.inj hl).symm
      exact ⟨(upd_other _ _ _ _ this).trans hk, fun f _ => rfl⟩
    · exact absurd h (by simp)
  · next f v p hp =>
    obtain rfl := Option.some.inj h
    refine ⟨hk, fun f' hf' => ?_⟩
    rw [hp] at hd
    have : f' ≠ f := fun e => by subst e; exact hku (hf' ▸ hd.1)
    exact upd_other _ _ _ _ this
  · next f p hp =>
    obtain rfl := Option.some.inj h
    exact ⟨hk, fun f _ => rfl⟩

/-- The rest of a copy: the task holds the mutex and has still to read `fs2`. -/
theorem copy_rest (g : F → L) (rk : L → Nat) (P : Fin n → List (Instr L F V))
    (hP : ∀ t, Disciplined g rk [] (P t)) (t : Fin n) (k : L) (m : F → V)
    (rest : List (Instr L F V)) (es : List (Fin n)) (fs1 fs2 : List F)
    {s s' : Sys L F V n} (hi : Inv P s) (hk : s.holder k = some t)
    (hp : (s.th t).prog = fs2.map .rd ++ .rel k :: rest)
    (hm : ∀ f, g f = k → s.mem f = m f) (hg : ∀ f ∈ fs1 ++ fs2, g f = k)
    (hl : ∀ f ∈ fs1, (s.th t).loc f = some (m f))
    (h : run s es = some s') (hr : (s'.th t).prog = rest) :
    ∀ f ∈ fs1 ++ fs2, (s'.th t).loc f = some (m f) := by
  induction es generalizing s fs1 fs2 with
  | nil =>
    obtain rfl := Option.some.inj h
    rw [hp] at hr
    have := congrArg List.length hr
    simp at this
    omega
  | cons u es ih =>
    unfold run at h
    split at h
    · exact absurd h (by simp)
    · next s1 hs =>
      have hi1 := inv_step g rk P hP hi hs
      by_cases hu : u = t
      · subst hu
        cases fs2 with
        | nil =>
          simp only [List.map_nil, List.nil_append] at hp
          unfold step at hs
          rw [hp] at hs
          simp only [hk, if_true] at hs
          obtain rfl := Option.some.inj hs
          have h3 := run_still u es h (by simp [upd_same, hr])
          intro f hf
          rw [h3]
          simp only [upd_same]
          exact hl f (by simpa using hf)
        | cons f0 fs2 =>
          simp only [List.map_cons, List.cons_append] at hp
          unfold step at hs
          rw [hp] at hs
          dsimp only at hs
          obtain rfl := Option.some.inj hs
          have hg0 : g f0 = k := hg f0 (by simp)
          have := ih (s := _) (fs1 ++ [f0]) fs2 hi1 hk (by simp [upd_same]) hm
            (by intro f hf; exact hg f (by simpa using hf)) (by
              intro f hf
              simp only [upd_same]
              by_cases he : f = f0
              · subst he; rw [upd_same, hm f hg0]
              · rw [upd_other _ _ _ _ he]
                exact hl f (by
                  rcases List.mem_append.1 hf with h' | h'
                  · exact h'
                  · exact absurd (List.mem_singleton.1 h') he)) h
          intro f hf
          exact this f (by simpa using hf)
      · obtain ⟨hk1, hm1⟩ := other_step g rk P hP hi hk hu hs
        obtain ⟨_, ho⟩ := step_prog hs
        refine ih fs1 fs2 hi1 hk1 (by rw [ho t (Ne.symm hu)]; exact hp)
          (fun f hf => (hm1 f hf).trans (hm f hf)) hg
          (by rw [ho t (Ne.symm hu)]; exact hl) h

/-- A copy made inside one section shows the memory as it was at one moment, and
at that moment no task was inside a section of the same mutex. -/
theorem snapshot (g : F → L) (rk : L → Nat) (P : Fin n → List (Instr L F V))
    (hP : ∀ t, Disciplined g rk [] (P t)) (t : Fin n) (k : L) (fs : List F)
    (hg : ∀ f ∈ fs, g f = k) (rest : List (Instr L F V)) (es : List (Fin n))
    {s s' : Sys L F V n} (hi : Inv P s)
    (hp : (s.th t).prog = .acq k :: fs.map .rd ++ .rel k :: rest)
    (h : run s es = some s') (hr : (s'.th t).prog = rest) :
    ∃ a b sm, es = a ++ t :: b ∧ run s a = some sm ∧ sm.holder k = none
      ∧ (sm.th t).prog = (s.th t).prog ∧ ∀ f ∈ fs, (s'.th t).loc f = some (sm.mem f) := by
  induction es generalizing s with
  | nil =>
    obtain rfl := Option.some.inj h
    rw [hp] at hr
    have := congrArg List.length hr
    simp at this
    omega
  | cons u es ih =>
    unfold run at h
    split at h
    · exact absurd h (by simp)
    · next s1 hs =>
      have hi1 := inv_step g rk P hP hi hs
      by_cases hu : u = t
      · subst hu
        have hs' := hs
        unfold step at hs
        rw [hp] at hs
        simp only [List.cons_append] at hs
        split at hs
        · next hk =>
          obtain rfl := Option.some.inj hs
          refine ⟨[], es, s, rfl, rfl, hk, rfl, ?_⟩
          have := copy_rest g rk P hP u k s.mem rest es [] fs hi1
            (by simp [upd_same]) (by simp [upd_same]) (fun _ _ => rfl) (by simpa using hg)
            (by simp) h hr
          simpa using this
        · exact absurd hs (by simp)
      · obtain ⟨_, ho⟩ := step_prog hs
        obtain ⟨a, b, sm, e1, e2, e3, e4, e5⟩ :=
          ih hi1 (by rw [ho t (Ne.symm hu)]; exact hp) h
        refine ⟨u :: a, b, sm, by rw [e1]; rfl, ?_, e3, by rw [e4, ho t (Ne.symm hu)], e5⟩
        rw [run, hs]; exact e2

omit [DecidableEq F] in
/-- Instructions that neither take nor give leave the held mutexes alone. -/
theorem heldAfter_plain (h : List L) (ws : List (Instr L F V)) (hw : ∀ i ∈ ws, Plain i) :
    heldAfter h ws = h := by
  induction ws generalizing h with
  | nil => rfl
  | cons i ws ih =>
    cases i with
    | acq l => exact (hw (.acq l) (by simp)).elim
    | rel l => exact (hw (.rel l) (by simp)).elim
    | wr f v => exact ih _ fun j hj => hw j (by simp [hj])
    | rd f => exact ih _ fun j hj => hw j (by simp [hj])

omit [DecidableEq F] in
/-- While a mutex is free, every section of it is either not begun or finished:
none is half done. -/
theorem free_whole (P : Fin n → List (Instr L F V))
    {s : Sys L F V n} (hi : Inv P s) (k : L) (hk : s.holder k = none) (t : Fin n)
    (A ws B : List (Instr L F V)) (hw : ∀ i ∈ ws, Plain i)
    (hp : P t = A ++ .acq k :: ws ++ .rel k :: B) :
    (.acq k :: ws ++ .rel k :: B) <:+ (s.th t).prog ∨ (s.th t).prog <:+ B := by
  obtain ⟨dn, h1, h2⟩ := hi
  have hno : k ∉ heldAfter [] (dn t) := fun hm => by rw [(h2 k t).2 hm] at hk; simp at hk
  have e := (h1 t).symm.trans hp
  rw [List.append_assoc, List.append_eq_append_iff] at e
  rcases e with ⟨a, _, e2⟩ | ⟨c, e1, e2⟩
  · exact Or.inl (by rw [e2]; exact List.suffix_append _ _)
  · -- dn = A ++ c, `acq k :: ws ++ rel k :: B = c ++ prog`
    cases c with
    | nil => exact Or.inl (by rw [List.nil_append] at e2; rw [← e2])
    | cons i c =>
      simp only [List.cons_append, List.cons.injEq] at e2
      obtain ⟨rfl, e2⟩ := e2
      rw [List.append_eq_append_iff] at e2
      rcases e2 with ⟨a, e3, e4⟩ | ⟨a, e3, e4⟩
      · cases a with
        | nil =>
          exfalso
          apply hno
          have : c = ws := by simpa using e3
          subst this
          rw [e1, heldAfter_append]
          show k ∈ heldAfter (k :: heldAfter [] A) c
          rw [heldAfter_plain _ c hw]; simp
        | cons j a =>
          simp only [List.cons_append, List.cons.injEq] at e4
          exact Or.inr (by rw [e4.2]; exact List.suffix_append _ _)
      · exfalso
        apply hno
        rw [e1, heldAfter_append]
        show k ∈ heldAfter (k :: heldAfter [] A) c
        rw [heldAfter_plain _ c fun i hi => hw i (by rw [e3]; simp [hi])]; simp

/-- A task that holds a mutex, or waits for one, is not finished; following the
waits leads to a task that can continue. -/
theorem progress (g : F → L) (rk : L → Nat) (R : Nat) (hR : ∀ l, rk l < R)
    (P : Fin n → List (Instr L F V)) (hP : ∀ t, Disciplined g rk [] (P t))
    {s : Sys L F V n} (hi : Inv P s) (t : Fin n) (ht : (s.th t).prog ≠ []) :
    ∃ u s', step u s = some s' := by
  obtain ⟨dn, h1, h2⟩ := hi
  have hd : ∀ u, Disciplined g rk (heldAfter [] (dn u)) (s.th u).prog := fun u =>
    disc_append g rk [] (dn u) _ (h1 u ▸ hP u)
  -- by induction on how many ranks are left above the awaited mutex
  suffices H : ∀ d (u : Fin n), (s.th u).prog ≠ [] →
      (∀ l p, (s.th u).prog = .acq l :: p → R - rk l ≤ d) → ∃ u s', step u s = some s' from
    H R t ht fun l p _ => Nat.sub_le _ _
  intro d
  induction d with
  | zero =>
    intro u hu hl
    cases hp : (s.th u).prog with
    | nil => exact absurd hp hu
    | cons i p =>
      have hdu := hd u
      rw [hp] at hdu
      cases i with
      | acq l => have := hl l p hp; have := hR l; omega
      | rel l =>
        exact ⟨u, Option.isSome_iff_exists.1 (by simp [step, hp, (h2 l u).2 hdu.1])⟩
      | wr f v => exact ⟨u, Option.isSome_iff_exists.1 (by simp [step, hp])⟩
      | rd f => exact ⟨u, Option.isSome_iff_exists.1 (by simp [step, hp])⟩
  | succ d ih =>
    intro u hu hl
    cases hp : (s.th u).prog with
    | nil => exact absurd hp hu
    | cons i p =>
      have hdu := hd u
      rw [hp] at hdu
      cases i with
      | acq l =>
        cases hh : s.holder l with
        | none => exact ⟨u, Option.isSome_iff_exists.1 (by simp [step, hp, hh])⟩
        | some w =>
          have hw := (h2 l w).1 hh
          have hdw := hd w
          refine ih w (fun e => ?_) fun l' p' e => ?_
          · rw [e] at hdw; rw [hdw] at hw; simp at hw
          · rw [e] at hdw
            have := hdw.1 l hw
            have := hl l p hp
            have := hR l'
            omega
      | rel l =>
        exact ⟨u, Option.isSome_iff_exists.1 (by simp [step, hp, (h2 l u).2 hdu.1])⟩
      | wr f v => exact ⟨u, Option.isSome_iff_exists.1 (by simp [step, hp])⟩
      | rd f => exact ⟨u, Option.isSome_iff_exists.1 (by simp [step, hp])⟩

/-- From every state some continuation brings all tasks to their end. -/
theorem finish (g : F → L) (rk : L → Nat) (R : Nat) (hR : ∀ l, rk l < R)
    (P : Fin n → List (Instr L F V)) (hP : ∀ t, Disciplined g rk [] (P t))
    {s : Sys L F V n} (hi : Inv P s) :
    ∃ es s', run s es = some s' ∧ ∀ t, (s'.th t).prog = [] := by
  suffices H : ∀ d (s : Sys L F V n), Inv P s → (∑ t, (s.th t).prog.length) = d →
      ∃ es s', run s es = some s' ∧ ∀ t, (s'.th t).prog = [] from H _ s hi rfl
  intro d
  induction d using Nat.strong_induction_on with
  | _ d ih =>
    intro s hi hd
    by_cases hall : ∀ t, (s.th t).prog = []
    · exact ⟨[], s, rfl, hall⟩
    · obtain ⟨t, ht⟩ := not_forall.1 hall
      obtain ⟨u, s1, hs⟩ := progress g rk R hR P hP hi t ht
      obtain ⟨⟨i, h1⟩, ho⟩ := step_prog hs
      have hlt : (∑ t, (s1.th t).prog.length) < d := by
        rw [← hd]
        refine Finset.sum_lt_sum (fun v _ => ?_) ⟨u, Finset.mem_univ _, ?_⟩
        · by_cases hv : v = u
          · subst hv; rw [h1]; simp
          · rw [ho v hv]
        · rw [h1]; simp
      obtain ⟨es, s', e1, e2⟩ := ih _ hlt s1 (inv_step g rk P hP hi hs) rfl
      exact ⟨u :: es, s', by rw [run, hs]; exact e1, e2⟩

end General

/-! ## The firmware's calls -/

section Firmware

variable {V : Type} {n : Nat}

/-- What a call does between take and give: accesses to objects that the call's
mutex protects, nothing else. -/
def Guarded (k : Lock) : Instr Lock Fld V → Prop
  | .wr f _ => guardOf f = k
  | .rd f => guardOf f = k
  | _ => False

theorem wrs_guarded (v : Fld → V) (names : List String) :
    ∀ i ∈ wrs v names, Guarded .vehicle i := by
  intro i hi
  obtain ⟨a, _, rfl⟩ := List.mem_map.1 hi
  rfl

theorem body_guarded (v : Fld → V) (fn : Fn) : ∀ i ∈ (body v fn).2, Guarded (body v fn).1 i := by
  cases fn
  case copyState =>
    intro i hi
    obtain ⟨a, _, rfl⟩ := List.mem_map.1 hi
    rfl
  case discrete a b fr re =>
    intro i hi
    simp only [body, List.mem_append] at hi
    rcases hi with ((((h | h) | h) | h) | h) | h
    all_goals first
      | exact wrs_guarded v _ i h
      | (split at h
         · exact wrs_guarded v _ i h
         · exact absurd h (by simp))
  case enable done =>
    intro i hi
    cases done <;> simp [body] at hi
    · subst hi; rfl
    · rcases hi with rfl | rfl | rfl <;> rfl
  case discharge done on =>
    intro i hi
    cases done <;> cases on <;> simp [body] at hi
    · subst hi; rfl
    · subst hi; rfl
    · rcases hi with rfl | rfl <;> rfl
    · rcases hi with rfl | rfl | rfl <;> rfl
  case readPedal => intro i hi; simp [body] at hi; subst hi; rfl
  case readButton => intro i hi; simp [body] at hi; subst hi; rfl
  case readInverter => intro i hi; simp [body] at hi; subst hi; rfl
  case torque => intro i hi; simp [body] at hi; subst hi; rfl
  case setEnabled => intro i hi; simp [body] at hi; subst hi; rfl
  case setDirection => intro i hi; simp [body] at hi; subst hi; rfl
  case crcCalc => intro i hi; simp [body] at hi; rcases hi with rfl | rfl <;> rfl
  case logPrint => intro i hi; simp [body] at hi; rcases hi with rfl | rfl | rfl | rfl <;> rfl
  case logStream => intro i hi; simp [body] at hi; rcases hi with rfl | rfl <;> rfl
  case logSwo => intro i hi; simp [body] at hi; subst hi; rfl
  all_goals exact wrs_guarded v _

theorem guarded_plain (k : Lock) (i : Instr Lock Fld V) (h : Guarded k i) : Plain i := by
  cases i <;> first | exact h.elim | trivial

theorem disc_guarded (k : Lock) (ws p : List (Instr Lock Fld V)) (hw : ∀ i ∈ ws, Guarded k i)
    (hp : Disciplined guardOf (fun _ => 0) [k] p) :
    Disciplined guardOf (fun _ => 0) [k] (ws ++ p) := by
  induction ws with
  | nil => exact hp
  | cons i ws ih =>
    have h1 := hw i (by simp)
    have h2 := ih fun j hj => hw j (by simp [hj])
    cases i with
    | acq l => exact h1.elim
    | rel l => exact h1.elim
    | wr f v => exact ⟨by rw [show guardOf f = k from h1]; simp, h2⟩
    | rd f => exact ⟨by rw [show guardOf f = k from h1]; simp, h2⟩

/-- Every task of the firmware keeps the discipline, with all mutexes of the same
rank: no task ever holds two. -/
theorem task_disc (cs : List (Fn × (Fld → V))) :
    Disciplined guardOf (fun _ => 0) [] (task cs) := by
  induction cs with
  | nil => exact rfl
  | cons c cs ih =>
    show Disciplined guardOf (fun _ => 0) [] (call c ++ task cs)
    unfold call
    rw [List.append_assoc]
    refine ⟨by simp, disc_guarded _ _ _ (body_guarded c.2 c.1) ⟨by simp, ?_⟩⟩
    simpa using ih

theorem task_append (a b : List (Fn × (Fld → V))) : task (a ++ b) = task a ++ task b :=
  List.flatMap_append

theorem task_cons (c : Fn × (Fld → V)) (cs : List (Fn × (Fld → V))) :
    task (c :: cs) = .acq (body c.2 c.1).1 :: (body c.2 c.1).2
      ++ .rel (body c.2 c.1).1 :: task cs := by
  show call c ++ task cs = _
  simp [call]

/-- **C92** (consistent copies).  Any number of tasks make any calls of the
firmware, switched at any instruction.  When a task has completed a copy of the
vehicle data, every member of the copy has the value the member had at one and
the same moment during the copy, and at that moment every call of every task
that accesses the vehicle data was either not begun or complete. -/
theorem C92_consistent (cs : Fin n → List (Fn × (Fld → V))) (m : Fld → V)
    (es1 es2 : List (Fin n)) (s1 s2 : Sys Lock Fld V n) (t : Fin n) (v : Fld → V)
    (after : List (Fn × (Fld → V)))
    (r1 : run (init (fun u => task (cs u)) m) es1 = some s1)
    (h1 : (s1.th t).prog = task ((.copyState, v) :: after))
    (r2 : run s1 es2 = some s2) (h2 : (s2.th t).prog = task after) :
    ∃ a b sm, es2 = a ++ t :: b ∧ run s1 a = some sm
      ∧ (∀ u pre c post, cs u = pre ++ c :: post → (body c.2 c.1).1 = .vehicle →
          task (c :: post) <:+ (sm.th u).prog ∨ (sm.th u).prog <:+ task post)
      ∧ ∀ x ∈ vsFields, (s2.th t).loc (.vs x) = some (sm.mem (.vs x)) := by
  have hP : ∀ u, Disciplined guardOf (fun _ => 0) [] (task (cs u)) := fun u => task_disc _
  have hi1 := inv_run guardOf (fun _ => 0) _ hP es1 (inv_init _ m) r1
  rw [task_cons] at h1
  obtain ⟨a, b, sm, e1, e2, e3, _, e5⟩ :=
    snapshot guardOf (fun _ => 0) _ hP t .vehicle (vsFields.map .vs)
      (by intro f hf; obtain ⟨x, _, rfl⟩ := List.mem_map.1 hf; rfl) (task after) es2 hi1
      (by rw [h1]; simp [body]) r2 h2
  refine ⟨a, b, sm, e1, e2, fun u pre c post hc hv => ?_,
    fun x hx => e5 _ (List.mem_map_of_mem hx)⟩
  have him := inv_run guardOf (fun _ => 0) _ hP a hi1 e2
  have := free_whole _ him .vehicle e3 u (task pre) (body c.2 c.1).2 (task post)
    (fun i hi => guarded_plain _ i (body_guarded c.2 c.1 i hi))
    (by rw [hc, task_append, task_cons, hv]; simp)
  rw [task_cons, hv]
  exact this

/-- **C93** (no deadlock).  Whatever the tasks have done, as long as one of them
is not finished some task can execute its next instruction. -/
theorem C93_no_deadlock (cs : Fin n → List (Fn × (Fld → V))) (m : Fld → V)
    (es : List (Fin n)) (s : Sys Lock Fld V n)
    (r : run (init (fun u => task (cs u)) m) es = some s)
    (t : Fin n) (ht : (s.th t).prog ≠ []) : ∃ u s', step u s = some s' :=
  progress guardOf (fun _ => 0) 1 (fun _ => Nat.one_pos) _ (fun _ => task_disc _)
    (inv_run guardOf (fun _ => 0) _ (fun _ => task_disc _) es (inv_init _ m) r) t ht

/-- **C93** (completion).  From every state the tasks can reach, some
continuation completes the calls of all tasks. -/
theorem C93_finish (cs : Fin n → List (Fn × (Fld → V))) (m : Fld → V)
    (es : List (Fin n)) (s : Sys Lock Fld V n)
    (r : run (init (fun u => task (cs u)) m) es = some s) :
    ∃ es' s', run s es' = some s' ∧ ∀ t, (s'.th t).prog = [] :=
  finish guardOf (fun _ => 0) 1 (fun _ => Nat.one_pos) _ (fun _ => task_disc _)
    (inv_run guardOf (fun _ => 0) _ (fun _ => task_disc _) es (inv_init _ m) r)

/-- **C93** (gives).  A mutex is only given by the task that holds it, and the
task that holds a mutex never waits for another one: a waiting task holds
nothing. -/
theorem C93_holder (cs : Fin n → List (Fn × (Fld → V))) (m : Fld → V)
    (es : List (Fin n)) (s : Sys Lock Fld V n)
    (r : run (init (fun u => task (cs u)) m) es = some s) (t : Fin n) :
    (∀ l p, (s.th t).prog = .rel l :: p → s.holder l = some t)
      ∧ ∀ l p, (s.th t).prog = .acq l :: p → ∀ k, s.holder k ≠ some t := by
  have hP : ∀ u, Disciplined guardOf (fun _ => 0) [] (task (cs u)) := fun u => task_disc _
  obtain ⟨dn, h1, h2⟩ := inv_run guardOf (fun _ => 0) _ hP es (inv_init _ m) r
  have hd := disc_append guardOf (fun _ => 0) [] (dn t) (s.th t).prog (by
    rw [← h1 t]; exact hP t)
  constructor
  · intro l p hp
    rw [hp] at hd
    exact (h2 l t).2 hd.1
  · intro l p hp k hk
    rw [hp] at hd
    exact absurd (hd.1 k ((h2 k t).1 hk)) (by simp)

/-! ### Concrete cases -/

/-- Two tasks: one receives a GPS record, one copies the vehicle data. -/
def demo : Fin 2 → List (Fn × (Fld → Nat))
  | 0 => [(.gpsCopy, fun _ => 7)]
  | 1 => [(.copyState, fun _ => 0)]

/-- The copying task cannot take the mutex while the GPS task is inside its
section: the schedule that tries stops. -/
example : (run (init (fun u => task (demo u)) fun _ => 3) [0, 0, 0, 1]).isNone = true := by
  decide +kernel

/-- Serial schedules go through; the copy made after the GPS call shows all new
values, the one made before shows all old ones. -/
example :
    ((run (init (fun u => task (demo u)) fun _ => 3)
      (List.replicate 9 0 ++ List.replicate 74 1)).map fun s =>
        ((s.th 1).loc (.vs "vehicle.gps.utcTime"), (s.th 1).loc (.vs "vehicle.gps.longitude"),
         (s.th 1).prog.length)) = some (some 7, some 7, 0)
    ∧ ((run (init (fun u => task (demo u)) fun _ => 3)
      (List.replicate 74 1 ++ List.replicate 9 0)).map fun s =>
        ((s.th 1).loc (.vs "vehicle.gps.utcTime"), (s.th 1).loc (.vs "vehicle.gps.longitude"),
         (s.th 1).prog.length)) = some (some 3, some 3, 0) := by
  decide +kernel

/-- Without the discipline the same system does deadlock: two tasks that nest two
mutexes in opposite order. -/
example :
    let P : Fin 2 → List (Instr Lock Fld Nat) := fun t =>
      if t = 0 then [.acq .vehicle, .acq .log, .rel .log, .rel .vehicle]
      else [.acq .log, .acq .vehicle, .rel .vehicle, .rel .log]
    ((run (init P fun _ => 0) [0, 1]).map fun s =>
      ((step 0 s).isNone, (step 1 s).isNone)) = some (true, true) := by
  decide +kernel

/-- Without the mutex a copy mixes old and new values. -/
example :
    let P : Fin 2 → List (Instr Lock Fld Nat) := fun t =>
      if t = 0 then (body (fun _ => 7) .gpsCopy).2 else (body (fun _ => 0) .copyState).2
    ((run (init P fun _ => 3) (List.replicate 15 1 ++ List.replicate 7 0 ++ List.replicate 57 1)).map
      fun s => ((s.th 1).loc (.vs "vehicle.gps.utcTime"),
        (s.th 1).loc (.vs "vehicle.gps.longitude"), (s.th 1).prog.length))
      = some (some 3, some 7, 0) := by
  decide +kernel

end Firmware

end Verif.LockProps
