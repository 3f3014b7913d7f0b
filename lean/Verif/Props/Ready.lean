import Verif.Proofs.ReadyStep

set_option autoImplicit false

/-!
# C106, C107, C108: which task runs
-/

namespace Verif.Ready

open Verif.KList

/-! ## The start -/

/-- What holds while the first tasks are created. -/
structure Pre (s : St) (c : Lists) : Prop where
  core : Core s c
  only : ∀ t l, s.heap.container t = some l → ∃ p, l = .ready p
  high : s.top ≠ 0#32 → Highest s
  susp : s.susp = 0
  owed : s.yieldPending = false
  pend : s.pend = false
  pending : s.pending = []

theorem top_zero {s : St} {c : Lists} (I : Core s c) :
    s.top = 0#32 ↔ ∀ t p, s.heap.container t ≠ some (.ready p) := by
  constructor
  · intro h t p ht
    have := (I.bits p).mpr ⟨t, ht⟩
    rw [h] at this; simp at this
  · intro h
    apply BitVec.eq_of_getLsbD_eq
    intro i _
    have : ¬ s.top.getLsbD i = true := fun hi => by
      obtain ⟨t, ht⟩ := (I.bits i).mp hi
      exact h t i ht
    simpa using this

theorem pre_create {s : St} {c : Lists} (I : Pre s c) {t p : Nat} (hn : s.heap.container t = none) :
    ∃ c', Pre (createFirst s t p) c' ∧ (createFirst s t p).heap.container t ≠ none := by
  unfold createFirst
  simp only
  generalize hqd : (if maxPriorities ≤ p then maxPriorities - 1 else p) = q
  generalize hcd : (if s.top = 0#32 ∨ s.prio s.current ≤ q then t else s.current) = u
  have hq : q < 7 := by subst hqd; unfold maxPriorities; split_ifs <;> omega
  have I1 : Core { s with prio := Function.update s.prio t q, base := Function.update s.base t q, current := u } c := by
    refine ⟨I.core.world, I.core.vals, I.core.bits, ?_, ?_, ?_⟩
    · intro x r hx
      have hxt : x ≠ t := by rintro rfl; rw [hn] at hx; cases hx
      simp only
      rw [Function.update_of_ne hxt]; exact I.core.prios x r hx
    · intro x
      by_cases hxt : x = t
      · subst hxt; simpa using hq
      · simp only; rw [Function.update_of_ne hxt]; exact I.core.lt x
    · intro x
      by_cases hxt : x = t
      · subst hxt; simp
      · simp only; rw [Function.update_of_ne hxt, Function.update_of_ne hxt]; exact I.core.bl x
  have I2 := core_add I1 (t := t) hn
  refine ⟨_, ⟨I2, ?_, ?_, I.susp, I.owed, I.pend, I.pending⟩, ?_⟩
  · intro x l hx
    rw [addReady_container] at hx
    by_cases hxt : x = t
    · subst hxt; simp at hx; exact ⟨_, hx.symm⟩
    · rw [Function.update_of_ne hxt] at hx; exact I.only x l hx
  · intro _
    have hcur : (addReady { s with prio := Function.update s.prio t q, base := Function.update s.base t q, current := u } t).current = u := rfl
    have hpr : (addReady { s with prio := Function.update s.prio t q, base := Function.update s.base t q, current := u } t).prio = Function.update s.prio t q := rfl
    unfold Highest
    rw [hcur, hpr, addReady_container]
    simp only [Function.update_self]
    by_cases h0 : s.top = 0#32
    · have hu : u = t := by subst hcd; rw [if_pos (.inl h0)]
      subst hu
      refine ⟨⟨q, by simp⟩, fun x r hx => ?_⟩
      by_cases hxt : x = u
      · subst hxt; simp at hx; simp [hx]
      · rw [Function.update_of_ne hxt] at hx
        exact absurd hx ((top_zero I.core).mp h0 x r)
    · obtain ⟨⟨r0, hr0⟩, hall⟩ := I.high h0
      have hct : s.current ≠ t := by rintro h; rw [h, hn] at hr0; cases hr0
      by_cases hle : s.prio s.current ≤ q
      · have hu : u = t := by subst hcd; rw [if_pos (.inr hle)]
        subst hu
        refine ⟨⟨q, by simp⟩, fun x r hx => ?_⟩
        by_cases hxt : x = u
        · subst hxt; simp at hx; simp [hx]
        · rw [Function.update_of_ne hxt] at hx
          rw [Function.update_self]
          exact Nat.le_trans (hall x r hx) hle
      · have hu : u = s.current := by subst hcd; rw [if_neg (by simp [h0, hle])]
        subst hu
        rw [Function.update_of_ne hct, Function.update_of_ne hct]
        refine ⟨⟨r0, hr0⟩, fun x r hx => ?_⟩
        by_cases hxt : x = t
        · subst hxt; simp at hx; omega
        · rw [Function.update_of_ne hxt] at hx; exact hall x r hx
  · rw [addReady_container]; simp

theorem createFirst_keeps (s : St) (t p x : Nat) (h : s.heap.container x ≠ none) :
    (createFirst s t p).heap.container x ≠ none := by
  unfold createFirst
  simp only [addReady_container]
  by_cases hx : x = t
  · subst hx; simp
  · rw [Function.update_of_ne hx]; exact h

theorem pre_fold : ∀ (ts : List (Nat × Nat)) {s : St} {c : Lists} (_ : Pre s c),
    ∃ c', Pre (ts.foldl (fun (s : St) (t : Nat × Nat) =>
      if s.heap.container t.1 = none then createFirst s t.1 t.2 else s) s) c' ∧
      ∀ x, (s.heap.container x ≠ none ∨ x ∈ ts.map Prod.fst) →
        (ts.foldl (fun (s : St) (t : Nat × Nat) =>
          if s.heap.container t.1 = none then createFirst s t.1 t.2 else s) s).heap.container x ≠ none
  | [], s, c, I => ⟨c, I, fun x hx => by simpa using hx⟩
  | t :: ts, s, c, I => by
    rw [List.foldl_cons]
    by_cases hn : s.heap.container t.1 = none
    · rw [if_pos hn]
      obtain ⟨c1, I1, h1⟩ := pre_create I (p := t.2) hn
      obtain ⟨c2, I2, h2⟩ := pre_fold ts I1
      refine ⟨c2, I2, fun x hx => h2 x ?_⟩
      rcases hx with hx | hx
      · exact .inl (createFirst_keeps s _ _ x hx)
      · rw [List.map_cons, List.mem_cons] at hx
        rcases hx with rfl | hx
        · exact .inl h1
        · exact .inr hx
    · rw [if_neg hn]
      obtain ⟨c2, I2, h2⟩ := pre_fold ts I
      refine ⟨c2, I2, fun x hx => h2 x ?_⟩
      rcases hx with hx | hx
      · exact .inl hx
      · rw [List.map_cons, List.mem_cons] at hx
        rcases hx with rfl | hx
        · exact .inl hn
        · exact .inr hx

theorem fold_cleanup : ∀ (ts : List (Nat × Nat)) (s : St),
    (ts.foldl (fun (s : St) (t : Nat × Nat) =>
      if s.heap.container t.1 = none then createFirst s t.1 t.2 else s) s).cleanup = s.cleanup
  | [], _ => rfl
  | t :: ts, s => by
    rw [List.foldl_cons, fold_cleanup ts]
    split_ifs <;> rfl

theorem inv_start (junk : Nat → Addr LId Nat) (ts : List (Nat × Nat)) :
    ∃ c, Inv True (start junk ts) c ∧ Highest (start junk ts) := by
  unfold start
  simp only
  obtain ⟨c, I, h⟩ := pre_fold (ts ++ [(idle, 0)])
    (s := ⟨init junk (fun _ => 0), 0#32, fun _ => 0, fun _ => 0, idle, 0, false, false, [], 0⟩)
    (c := fun _ => ⟨[], []⟩)
    ⟨⟨world_init junk _, fun x => by simp [init, maxDelay], fun p => by simp [init],
      fun t p ht => by simp [init] at ht, fun _ => by simp, fun _ => by simp⟩,
      fun t l ht => by simp [init] at ht, fun h => absurd rfl h, rfl, rfl, rfl, rfl⟩
  have hi := h idle (.inr (by simp))
  rcases hc : ((ts ++ [(idle, 0)]).foldl (fun (s : St) (t : Nat × Nat) =>
      if s.heap.container t.1 = none then createFirst s t.1 t.2 else s)
      ⟨init junk (fun _ => 0), 0#32, fun _ => 0, fun _ => 0, idle, 0, false, false, [], 0⟩).heap.container idle with _ | l
  · exact absurd hc hi
  · obtain ⟨p, rfl⟩ := I.only _ _ hc
    have ht : _ ≠ 0#32 := fun h0 => (top_zero I.core).mp h0 _ _ hc
    refine ⟨c, ⟨⟨I.core, ⟨p, hc⟩, ?_, ?_, fun _ => I.pending, fun _ _ _ => I.high ht⟩, ?_⟩, I.high ht⟩
    · rw [I.pending]; intro x hx; cases hx
    · rw [I.pending]; exact List.nodup_nil
    · rw [fold_cleanup]
      rcases he : (c .ended).all with _ | ⟨x, xs⟩
      · rfl
      · obtain ⟨p, hp⟩ := I.only x .ended (((I.core.world .ended).mem x).mpr (by rw [he]; simp))
        cases hp

theorem inv_run : ∀ (es : List Ev) {s : St} {c : Lists} (_ : Inv False s c),
    ∃ s' c', run s es = .ok s' ∧ Inv False s' c'
  | [], s, c, I => ⟨s, c, rfl, I⟩
  | e :: es, s, c, I => by
    obtain ⟨s1, c1, h1, I1, _⟩ := step_spec (j := False) I e False.elim
    rw [run, h1]
    exact inv_run es I1

theorem Reached.inv {s : St} (h : Reached s) : ∃ c, Inv False s c := by
  obtain ⟨junk, ts, es, hr⟩ := h
  obtain ⟨c0, I0, _⟩ := inv_start junk ts
  obtain ⟨s', c', h1, I1⟩ := inv_run es (I0.weaken False.elim)
  rw [h1] at hr
  exact ⟨c', by rw [← Except.ok.inj hr]; exact I1⟩

theorem inv_run_good : ∀ (es : List Ev) {s s' : St} {c : Lists} (_ : Inv True s c) (_ : NoStaleGive s es)
    (_ : run s es = .ok s'), ∃ c', Inv True s' c'
  | [], s, s', c, I, _, hr => by rw [run] at hr; cases hr; exact ⟨c, I⟩
  | e :: es, s, s', c, I, hn, hr => by
    obtain ⟨s1, c1, h1, I1, _⟩ := step_spec (j := True) I e (fun _ => ⟨trivial, by
      have := hn.1
      unfold GoodEv
      split
      · rename_i t
        intro hne
        by_contra hcon
        exact this ⟨hne, t, rfl, by omega⟩
      · trivial⟩)
    rw [run, h1] at hr
    exact inv_run_good es I1 (hn.2 s1 h1) hr

theorem Reached.step {s s' : St} {e : Ev} (h : Reached s) (hs : step s e = .ok s') : Reached s' := by
  obtain ⟨junk, ts, es, hr⟩ := h
  refine ⟨junk, ts, es ++ [e], ?_⟩
  have : ∀ (es : List Ev) (s0 : St), run s0 es = .ok s → run s0 (es ++ [e]) = .ok s' := by
    intro es
    induction es with
    | nil =>
      intro s0 h0
      have : s0 = s := Except.ok.inj h0
      subst this
      simp only [List.nil_append, run, hs]
    | cons a as ih =>
      intro s0 h0
      simp only [List.cons_append, run] at h0 ⊢
      rcases hst : Ready.step s0 a with u | s1
      · rw [hst] at h0; cases h0
      · rw [hst] at h0; exact ih s1 h0
  exact this es _ hr

theorem highest_iff {s : St} {c : Lists} (I : Core s c) : Highest s ↔ Right s := by
  constructor
  · rintro ⟨h1, h2⟩
    refine ⟨h1, ?_⟩
    rintro t ⟨p, hp⟩
    rw [I.prios t p hp]; exact h2 t p hp
  · rintro ⟨h1, h2⟩
    refine ⟨h1, fun t p hp => ?_⟩
    rw [← I.prios t p hp]; exact h2 t ⟨p, hp⟩

/-! ## C106 -/

/-- Whatever happens to the kernel, it never leaves its arrays, never follows a null pointer and no
assertion fails. -/
theorem C106_never_fails (junk : Nat → Addr LId Nat) (ts : List (Nat × Nat)) (es : List Ev) :
    ∃ s, run (start junk ts) es = .ok s := by
  obtain ⟨c0, I0, _⟩ := inv_start junk ts
  obtain ⟨s', c', h1, _⟩ := inv_run es (I0.weaken False.elim)
  exact ⟨s', h1⟩

/-- Every change of tasks gives the processor to a task that can run, of the highest priority
there is among those that can run. It changes neither who can run nor any priority, and leaves
no switch to be made. -/
theorem C106_switch_right {s s' : St} {e : Ev} (h : Reached s) (hs : step s e = .ok s') (hw : Switches s e) :
    Right s' ∧ (∀ t, CanRun s' t ↔ CanRun s t) ∧ s'.prio = s.prio ∧ s'.pend = false ∧
      s'.yieldPending = false := by
  obtain ⟨c, I⟩ := h.inv
  obtain ⟨s1, c1, h1, I1, h2⟩ := step_spec (j := False) I e False.elim
  rw [h1] at hs
  have := Except.ok.inj hs
  subst this
  rw [if_pos hw] at h2
  obtain ⟨z, hz, hc, hp, hd, hy, hi⟩ := h2
  refine ⟨(highest_iff I1.core).mp hi, ?_, hp, hd, hy⟩
  intro t
  have key : ∀ p, t ∈ (c1 (.ready p)).all ↔ t ∈ (c (.ready p)).all := by
    intro p
    rw [hc]
    by_cases hpp : p = s1.prio s1.current
    · subst hpp
      rw [Function.update_self]
      rcases hcl : c (.ready (s1.prio s1.current)) with ⟨a, b⟩
      rw [hcl] at hz
      unfold Z.next at hz
      cases b with
      | cons x b => simp only [Option.some.injEq, Prod.mk.injEq] at hz; rw [← hz.2]; simp [Z.all]
      | nil =>
        cases a with
        | nil => cases hz
        | cons x a => simp only [Option.some.injEq, Prod.mk.injEq] at hz; rw [← hz.2]; simp [Z.all]
    · rw [Function.update_of_ne (by simpa using hpp)]
  unfold CanRun
  constructor
  · rintro ⟨p, hp⟩
    exact ⟨p, ((I.core.world (.ready p)).mem t).mpr ((key p).mp (((I1.core.world (.ready p)).mem t).mp hp))⟩
  · rintro ⟨p, hp⟩
    exact ⟨p, ((I1.core.world (.ready p)).mem t).mpr ((key p).mpr (((I.core.world (.ready p)).mem t).mp hp))⟩

/-- A task that can run is in the list of the priority it has now, inherited or its own. -/
theorem C106_right_list {s : St} (h : Reached s) {t p : Nat} (ht : s.heap.container t = some (.ready p)) :
    p = s.prio t ∧ s.base t ≤ p ∧ p < 7 := by
  obtain ⟨c, I⟩ := h.inv
  have := I.core.prios t p ht
  subst this
  exact ⟨rfl, I.core.bl t, I.core.lt t⟩

/-! ## C107 -/

/-- How many tasks are picked at most until it is `t`'s turn. -/
def turns (t N : Nat) (z : Z Nat) : Nat :=
  if t ∈ z.past then z.ahead.length + N else z.ahead.idxOf t + 1

theorem idxOf_erase_le (t y : Nat) (h : y ≠ t) : ∀ l : List Nat, (l.erase y).idxOf t ≤ l.idxOf t
  | [] => by simp
  | x :: l => by
    rw [List.erase_cons]
    by_cases hxy : x = y
    · subst hxy
      simp only [beq_self_eq_true, if_true]
      rw [List.idxOf_cons_ne _ h]; omega
    · have : (x == y) = false := by simpa using hxy
      rw [this]
      simp only [Bool.false_eq_true, if_false]
      by_cases hxt : x = t
      · subst hxt; simp
      · rw [List.idxOf_cons_ne _ hxt, List.idxOf_cons_ne _ hxt]
        have := idxOf_erase_le t y h l
        omega

theorem count_insertEnd (z : Z Nat) (n t : Nat) :
    (z.insertEnd n).all.count t = z.all.count t + if n = t then 1 else 0 := by
  unfold Z.insertEnd Z.all
  rcases List.eq_nil_or_concat z.past with h | ⟨a, y, h⟩
  · rw [h]; simp [List.count_append, List.count_singleton]
  · rw [h]
    simp only [List.concat_eq_append, List.getLast?_append, List.getLast?_singleton, Option.some_or,
      List.dropLast_concat, List.count_append, List.count_cons, List.count_nil, beq_iff_eq]
    omega

/-- Others come and go: it does not take longer. -/
theorem turns_quiet {t N : Nat} {z z' : Z Nat} (q : Quiet t z z') (h : t ∈ z.all)
    (h1 : z'.all.count t ≤ 1) : t ∈ z'.all ∧ turns t N z' ≤ turns t N z := by
  induction q with
  | refl => exact ⟨h, Nat.le_refl _⟩
  | @ins z' n _ ih =>
    rw [count_insertEnd] at h1
    have ih := ih (by omega)
    have hm := ih.1
    have hnt : n ≠ t := by
      rintro rfl
      have := List.count_pos_iff.mpr hm
      rw [if_pos rfl] at h1
      omega
    refine ⟨List.count_pos_iff.mp (by rw [count_insertEnd]; have := List.count_pos_iff.mpr hm; omega),
      Nat.le_trans ?_ ih.2⟩
    unfold turns Z.insertEnd
    unfold Z.all at hm
    rcases List.eq_nil_or_concat z'.past with h | ⟨a, y, h⟩
    · rw [h] at hm ⊢
      simp only [List.nil_append] at hm
      simp [List.idxOf_append, hm]
    · rw [h, List.concat_eq_append]
      simp only [List.getLast?_append, List.getLast?_singleton, Option.some_or, List.dropLast_concat]
      have hiff : t ∈ a ++ [n, y] ↔ t ∈ a ++ [y] := by
        simp only [List.mem_append, List.mem_cons, Ne.symm hnt, List.not_mem_nil, false_or, or_false]
      simp only [hiff, Nat.le_refl]
  | @del z' y hy _ ih =>
    have ih := ih (by
      refine Nat.le_trans (Nat.le_of_eq ?_) h1
      unfold Z.all Z.erase
      simp only [List.count_append, List.count_erase_of_ne (Ne.symm hy)])
    have hm := ih.1
    refine ⟨?_, Nat.le_trans ?_ ih.2⟩
    · unfold Z.all Z.erase at *
      simp only [List.mem_append, List.mem_erase_of_ne (Ne.symm hy)] at hm ⊢
      exact hm
    · unfold turns Z.erase
      simp only [List.mem_erase_of_ne (Ne.symm hy)]
      split_ifs
      · have := List.length_erase_le (a := y) (l := z'.ahead)
        omega
      · have := idxOf_erase_le t y hy z'.ahead
        omega

/-- Another task is picked: one turn less. -/
theorem turns_next {t N x : Nat} {z z' : Z Nat} (h : z.next = some (x, z')) (hx : x ≠ t)
    (ht : t ∈ z.all) (hN : z.all.length ≤ N) : turns t N z' < turns t N z := by
  rcases z with ⟨a, b⟩
  unfold Z.next at h
  unfold Z.all at ht hN
  cases b with
  | cons y b =>
    simp only [Option.some.injEq, Prod.mk.injEq] at h
    obtain ⟨rfl, rfl⟩ := h
    unfold turns
    simp only
    by_cases hp : t ∈ a
    · rw [if_pos hp, if_pos (by simp [hp])]; simp only [List.length_cons]; omega
    · rw [if_neg hp, if_neg (by simp [hp, Ne.symm hx]), List.idxOf_cons_ne _ hx]; omega
  | nil =>
    cases a with
    | nil => cases h
    | cons y a =>
      simp only [Option.some.injEq, Prod.mk.injEq] at h
      obtain ⟨rfl, rfl⟩ := h
      unfold turns
      simp only [List.append_nil] at ht hN ⊢
      have hta : t ∈ a := by
        rcases List.mem_cons.mp ht with h | h
        · exact absurd h.symm hx
        · exact h
      have := List.idxOf_lt_length_iff.mpr hta
      rw [if_pos ht, if_neg (by simp [Ne.symm hx])]
      simp only [List.length_cons, List.length_nil] at hN ⊢
      omega

theorem turns_le {t N : Nat} {z : Z Nat} (ht : t ∈ z.all) (hN : z.all.length ≤ N) :
    turns t N z ≤ 2 * N - 1 := by
  unfold turns
  unfold Z.all at ht hN
  rw [List.length_append] at hN
  split_ifs with hp
  · have := List.length_pos_of_mem hp
    omega
  · have hta : t ∈ z.ahead := by
      rcases List.mem_append.mp ht with h | h
      · exact absurd h hp
      · exact h
    have := List.idxOf_lt_length_iff.mpr hta
    omega

theorem fair_aux {t p N : Nat} : ∀ (es : List Ev) {s : St} {c : Lists} (_ : Inv False s c)
    (_ : Along (fun s => s.heap.container t = some (.ready p) ∧ s.heap.count (.ready p) ≤ N) s es)
    (_ : t ∉ picks p s es), (picks p s es).length < turns t N (c (.ready p))
  | [], s, c, I, ha, _ => by
    simp only [picks, List.length_nil]
    simp only [Along] at ha
    have h0 := List.length_pos_of_mem (((I.core.world (.ready p)).mem t).mp ha.1)
    rw [← (I.core.world (.ready p)).count] at h0
    unfold turns
    split_ifs <;> omega
  | e :: es, s, c, I, ha, hn => by
    obtain ⟨s1, c1, h1, I1, h2⟩ := step_spec (j := False) I e False.elim
    simp only [Along] at ha
    have ha1 := ha.2 s1 h1
    have hin : t ∈ (c (.ready p)).all := ((I.core.world (.ready p)).mem t).mp ha.1.1
    have hlen : (c (.ready p)).all.length ≤ N := by
      rw [← (I.core.world (.ready p)).count]; exact ha.1.2
    have hin1 : t ∈ (c1 (.ready p)).all := by
      cases es with
      | nil => exact ((I1.core.world (.ready p)).mem t).mp ha1.1
      | cons a as => exact ((I1.core.world (.ready p)).mem t).mp ha1.1.1
    simp only [picks, h1] at hn ⊢
    rw [List.mem_append, not_or] at hn
    have ih := fair_aux es I1 ha1 hn.2
    rw [List.length_append]
    by_cases hsw : Switches s e
    · rw [if_pos hsw] at h2
      obtain ⟨z, hz, hc, _, _, _, _⟩ := h2
      by_cases hp : s1.prio s1.current = p
      · subst hp
        rw [if_pos ⟨hsw, rfl⟩] at hn ⊢
        have hx : s1.current ≠ t := by
          intro hx; exact hn.1 (by simp [hx])
        have := turns_next hz hx hin hlen
        rw [hc, Function.update_self] at ih
        simp only [List.length_singleton]
        omega
      · rw [if_neg (fun h => hp h.2)]
        rw [hc, Function.update_of_ne (by simpa using Ne.symm hp)] at ih
        simpa using ih
    · rw [if_neg hsw] at h2
      rw [if_neg (fun h => hsw h.1)]
      have hnd := nodup_all I1.core.world (.ready p)
      have := (turns_quiet (N := N) (h2 p t hin hin1) hin (List.nodup_iff_count_le_one.mp hnd t)).2
      simp only [List.length_nil]
      omega

/-- Tasks of equal priority take turns: a task that can run at priority `p` all the time, while at
most `N` tasks of that priority can run, is among any `2 N - 1` tasks that are given the processor
at that priority. -/
theorem C107_fair {s : St} (h : Reached s) {t p N : Nat} {es : List Ev}
    (ha : Along (fun s => s.heap.container t = some (.ready p) ∧ s.heap.count (.ready p) ≤ N) s es)
    (hp : 2 * N - 1 ≤ (picks p s es).length) : t ∈ picks p s es := by
  obtain ⟨c, I⟩ := h.inv
  by_contra hn
  have h1 := fair_aux es I ha hn
  have h0 : s.heap.container t = some (.ready p) ∧ s.heap.count (.ready p) ≤ N := by
    cases es with
    | nil => exact ha
    | cons e es => exact ha.1
  have hin : t ∈ (c (.ready p)).all := ((I.core.world (.ready p)).mem t).mp h0.1
  have hlen : (c (.ready p)).all.length ≤ N := by
    rw [← (I.core.world (.ready p)).count]; exact h0.2
  have := turns_le (t := t) hin hlen
  omega

/-! ## C108 -/

theorem Orderly.inv {s : St} (h : Orderly s) : ∃ c, Inv True s c := by
  obtain ⟨junk, ts, es, hr, hn⟩ := h
  obtain ⟨c0, I0, _⟩ := inv_start junk ts
  exact inv_run_good es I0 hn hr

theorem Orderly.reached {s : St} (h : Orderly s) : Reached s := by
  obtain ⟨junk, ts, es, hr, _⟩ := h
  exact ⟨junk, ts, es, hr⟩

theorem Orderly.step {s s' : St} {e : Ev} (h : Orderly s) (hg : ¬ StaleGive s e) (hs : step s e = .ok s') :
    Orderly s' := by
  obtain ⟨junk, ts, es, hr, hn⟩ := h
  refine ⟨junk, ts, es ++ [e], ?_⟩
  have : ∀ (es : List Ev) (s0 : St), run s0 es = .ok s → NoStaleGive s0 es →
      run s0 (es ++ [e]) = .ok s' ∧ NoStaleGive s0 (es ++ [e]) := by
    intro es
    induction es with
    | nil =>
      intro s0 h0 _
      have : s0 = s := Except.ok.inj h0
      subst this
      exact ⟨by simp only [List.nil_append, run, hs], hg, fun _ _ => trivial⟩
    | cons a as ih =>
      intro s0 h0 hn
      simp only [List.cons_append, run, NoStaleGive] at h0 hn ⊢
      rcases hst : Ready.step s0 a with u | s1
      · rw [hst] at h0; cases h0
      · rw [hst] at h0
        obtain ⟨k1, k2⟩ := ih s1 h0 (hn.2 s1 hst)
        exact ⟨k1, hn.1, fun s2 h2 => by rw [← Except.ok.inj h2]; exact k2⟩
  exact this es _ hr hn

/-- Whenever no switch has been asked for and none is owed, the right task is running. Missing:
histories with a `StaleGive`, for which it is false (`C108_stale_give`). -/
theorem C108_right_unless_pending_partial {s : St} (h : Orderly s) (hp : s.pend = false)
    (hy : s.yieldPending = false) : Right s := by
  obtain ⟨c, I⟩ := h.inv
  exact (highest_iff I.core).mp (I.high trivial hp hy)

/-- Also with several tasks of the same priority: a tick that leaves another task of the running
priority able to run asks for a switch. -/
theorem C107_tick_slices {s s' : St} {ts : List Nat} (h : Reached s) (hs : step s (.tick ts) = .ok s')
    (h0 : s.susp = 0) {t : Nat} (ht : t ≠ s'.current) (hr : CanRun s' s'.current) (hc : CanRun s' t)
    (hp : s'.prio t = s'.prio s'.current) : s'.pend = true := by
  obtain ⟨c, I⟩ := h.inv
  have hr' := h.step hs
  obtain ⟨c', I'⟩ := hr'.inv
  obtain ⟨p, hp1⟩ := hr
  obtain ⟨q, hq⟩ := hc
  have e1 := I'.core.prios _ _ hp1
  have e2 := I'.core.prios _ _ hq
  have : q = p := by omega
  subst this
  have m1 := ((I'.core.world (.ready q)).mem _).mp hp1
  have m2 := ((I'.core.world (.ready q)).mem _).mp hq
  have hlen : 1 < s'.heap.count (.ready q) := by
    rw [(I'.core.world (.ready q)).count]
    rcases hl : (c' (.ready q)).all with _ | ⟨x, _ | ⟨y, l⟩⟩
    · rw [hl] at m1; cases m1
    · rw [hl, List.mem_singleton] at m1 m2; exact absurd (m2.trans m1.symm) ht
    · simp
  simp only [step, if_pos h0] at hs
  obtain ⟨req, hh, b, c1, f1, _⟩ := wakeAll_spec ts I.core false
  unfold tickBody at hs
  rw [f1] at hs
  simp only [Except.ok.injEq] at hs
  subst hs
  simp only at e1 hlen ⊢
  rw [e1]
  simp [hlen]

/-- A tick turns every switch that is owed into one that is asked for: the right task is running
after it, or a switch has been asked for. Missing as above. -/
theorem C108_right_after_tick_partial {s s' : St} {ts : List Nat} (h : Orderly s)
    (hs : step s (.tick ts) = .ok s') (hp : s'.pend = false) : Right s' := by
  refine C108_right_unless_pending_partial
    (h.step (by rintro ⟨_, t, ht, _⟩; cases ht) hs) hp ?_
  obtain ⟨c, I⟩ := h.inv
  rcases Bool.eq_false_or_eq_true s.yieldPending with hy | hy
  · exfalso
    simp only [step] at hs
    by_cases h0 : s.susp = 0
    · rw [if_pos h0] at hs
      obtain ⟨req, hh, b, c1, f1, _, _, f4, _⟩ := tickBody_spec I.core ts
      rw [f1] at hs
      simp only [Except.ok.injEq] at hs
      subst hs
      simp only [f4 hy, Bool.or_true] at hp
      cases hp
    · rw [if_neg h0] at hs
      simp only [Except.ok.injEq] at hs
      subst hs
      simp only [hy, Bool.or_true] at hp
      cases hp
  · simp only [step] at hs
    by_cases h0 : s.susp = 0
    · rw [if_pos h0] at hs
      obtain ⟨req, hh, b, c1, f1, _⟩ := tickBody_spec I.core ts
      rw [f1] at hs
      simp only [Except.ok.injEq] at hs
      subst hs
      exact hy
    · rw [if_neg h0] at hs
      simp only [Except.ok.injEq] at hs
      subst hs
      exact hy

/-- The flags of the scheduler are the same. -/
def Flags (s s' : St) : Prop :=
  s'.susp = s.susp ∧ s'.pend = s.pend ∧ s'.yieldPending = s.yieldPending

theorem wake_flags {s s' : St} {t : Nat} (h : wake s t = .ok s') : Flags s s' := by
  unfold wake at h
  split at h
  · cases h
  · rw [← Except.ok.inj h]; exact ⟨rfl, rfl, rfl⟩

theorem takeReady_flags {s s' : St} {t q : Nat} (h : takeReady s t q = .ok s') : Flags s s' := by
  unfold takeReady at h
  split at h
  · cases h
  · rw [← Except.ok.inj h]; exact ⟨rfl, rfl, rfl⟩

theorem moveReady_flags {s s' : St} {t p : Nat} (h : moveReady s t p = .ok s') : Flags s s' := by
  unfold moveReady at h
  split at h
  · cases h
  · rename_i s1 h1
    have := takeReady_flags h1
    rw [← Except.ok.inj h]; exact this

/-- A switch that is owed is also asked for, unless the scheduler is suspended. -/
def Prompt (s : St) : Prop := s.yieldPending = true → s.pend = true ∨ s.susp ≠ 0

theorem Flags.prompt {s s' : St} (h : Flags s s') (k : Prompt s) : Prompt s' := by
  unfold Prompt
  rw [h.1, h.2.1, h.2.2]; exact k

theorem event_prompt {s s' : St} {t : Nat} {wk : Bool} (h : event s t = .ok (wk, s')) (k : Prompt s) :
    Prompt { s' with pend := s'.pend || wk } := by
  unfold event at h
  split at h
  · cases h
  · rename_i s1 h1
    have f : Flags s s1 := by
      split_ifs at h1
      · exact wake_flags h1
      · rw [← Except.ok.inj h1]; exact ⟨rfl, rfl, rfl⟩
    split_ifs at h
    · simp only [Except.ok.injEq, Prod.mk.injEq] at h
      obtain ⟨rfl, rfl⟩ := h
      intro _; left; simp
    · simp only [Except.ok.injEq, Prod.mk.injEq] at h
      obtain ⟨rfl, rfl⟩ := h
      intro hy
      simpa using f.prompt k hy

theorem step_prompt {s s' : St} {e : Ev} (h : step s e = .ok s') (he : ∀ t, e ≠ .event t false)
    (k : Prompt s) : Prompt s' := by
  cases e with
  | delete =>
    simp only [step] at h
    split_ifs at h
    · unfold delete at h
      simp only at h
      split at h
      · cases h
      · split_ifs at h <;> cases h <;> exact fun _ => .inl rfl
    · cases h; exact k
  | reap =>
    simp only [step] at h
    split_ifs at h
    · unfold reap at h
      split_ifs at h
      · cases h; exact k
      · split at h
        · cases h
        · split at h
          · cases h
          · cases h; exact k
    · cases h; exact k
  | create t p =>
    simp only [step] at h
    split_ifs at h <;> rw [← Except.ok.inj h]
    · intro hy
      rcases k hy with h | h
      · left; show (s.pend || _) = true; rw [h]; rfl
      · exact .inr h
    · exact k
  | block w =>
    simp only [step] at h
    split_ifs at h
    · unfold block at h
      split at h
      · cases h
      · cases w with
        | forever => rw [← Except.ok.inj h]; intro _; exact .inl rfl
        | «until» b v =>
          simp only at h
          split at h
          · cases h
          · rw [← Except.ok.inj h]; intro _; exact .inl rfl
    · rw [← Except.ok.inj h]; exact k
  | tick ts =>
    simp only [step] at h
    have grow : ∀ (ts : List Nat) (s : St) (r r' : Bool) (s1 : St), wakeAll s r ts = .ok (r', s1) → Flags s s1 := by
      intro ts
      induction ts with
      | nil =>
        intro s r r' s1 h
        simp only [wakeAll, Except.ok.injEq, Prod.mk.injEq] at h
        rw [← h.2]; exact ⟨rfl, rfl, rfl⟩
      | cons t ts ih =>
        intro s r r' s1 h
        rw [wakeAll] at h
        split at h
        · split at h
          · cases h
          · rename_i s2 h2
            have f := wake_flags h2
            have g := ih _ _ _ _ h
            exact ⟨g.1.trans f.1, g.2.1.trans f.2.1, g.2.2.trans f.2.2⟩
        · exact ih _ _ _ _ h
    split_ifs at h
    · unfold tickBody at h
      split at h
      · cases h
      · rename_i req s2 h2
        split at h2
        · cases h2
        · rename_i r3 s3 h3
          have f := grow _ _ _ _ _ h3
          simp only [Except.ok.injEq, Prod.mk.injEq] at h2
          obtain ⟨rfl, rfl⟩ := h2
          rw [← Except.ok.inj h]
          intro hy
          left
          simp only at hy ⊢
          rw [hy]; simp
    · rw [← Except.ok.inj h]
      intro hy
      left
      simp only at hy ⊢
      rw [hy]; simp
  | event t asks =>
    have ha : asks = true := by
      cases asks with
      | false => exact absurd rfl (he t)
      | true => rfl
    subst ha
    simp only [step] at h
    split_ifs at h
    · split at h
      · cases h
      · rename_i wk s1 h1
        rw [← Except.ok.inj h, Bool.and_true]
        exact event_prompt h1 k
    · rw [← Except.ok.inj h]; exact k
  | notify t =>
    simp only [step] at h
    split_ifs at h
    · split at h
      · cases h
      · rename_i s1 h1
        have f := wake_flags h1
        rw [← Except.ok.inj h]
        intro hy
        rcases f.prompt k hy with h | h
        · left; simp only; rw [h]; rfl
        · exact .inr h
    · rw [← Except.ok.inj h]; exact k
  | suspendAll =>
    simp only [step] at h
    rw [← Except.ok.inj h]
    intro _; right; simp
  | resumeAll tss =>
    simp only [step] at h
    split_ifs at h
    · rw [← Except.ok.inj h]; exact k
    · unfold resumeAll at h
      simp only at h
      split_ifs at h with h1
      · rw [← Except.ok.inj h]; intro _; exact .inr h1
      · split at h
        · cases h
        · split at h
          · cases h
          · rw [← Except.ok.inj h]
            intro hy
            left
            simp only at hy ⊢
            rw [hy]; simp
  | inherit t =>
    simp only [step] at h
    split_ifs at h
    · rw [← Except.ok.inj h]; exact k
    · unfold inherit at h
      split_ifs at h
      · exact (moveReady_flags h).prompt k
      · rw [← Except.ok.inj h]; exact k
      · rw [← Except.ok.inj h]; exact k
  | give w =>
    simp only [step] at h
    split_ifs at h
    · unfold give at h
      split at h
      · cases h
      · rename_i req s1 h1
        have f : Flags s s1 := by
          unfold disinherit at h1
          split_ifs at h1
          · split at h1
            · cases h1
            · rename_i s2 h2
              simp only [Except.ok.injEq, Prod.mk.injEq] at h1
              rw [← h1.2]; exact moveReady_flags h2
          · simp only [Except.ok.injEq, Prod.mk.injEq] at h1
            rw [← h1.2]; exact ⟨rfl, rfl, rfl⟩
        cases w with
        | none =>
          simp only at h
          rw [← Except.ok.inj h]
          intro hy
          rcases f.prompt k hy with h | h
          · left; simp only; rw [h]; rfl
          · exact .inr h
        | some t =>
          simp only at h
          split at h
          · cases h
          · rename_i wk s2 h2
            rw [← Except.ok.inj h]
            exact event_prompt h2 (f.prompt k)
    · rw [← Except.ok.inj h]; exact k
  | timeout t p =>
    simp only [step] at h
    split_ifs at h
    · unfold timeout at h
      simp only at h
      generalize (if s.base t < p then p else s.base t) = q at h
      split at h
      · rw [← Except.ok.inj h]; exact k
      · split at h
        · split at h
          · cases h
          · rename_i s1 h1
            have f := takeReady_flags h1
            rw [← Except.ok.inj h]
            exact Flags.prompt (s := s) ⟨f.1, f.2.1, f.2.2⟩ k
        · rw [← Except.ok.inj h]; exact k
    · rw [← Except.ok.inj h]; exact k
  | yield =>
    simp only [step] at h
    rw [← Except.ok.inj h]; intro _; exact .inl rfl
  | switch =>
    simp only [step] at h
    split_ifs at h
    · unfold switchContext at h
      split_ifs at h with h0
      · rw [← Except.ok.inj h]; intro _; exact .inr h0
      · unfold select at h
        simp only at h
        split_ifs at h
        split at h
        · cases h
        · rw [← Except.ok.inj h]
          intro hy; cases hy
    · rw [← Except.ok.inj h]; exact k

/-- If every interrupt routine passes the wish to switch on, there is no delay: whenever the
scheduler is not suspended and no switch has been asked for, the right task is running. Missing
as above. -/
theorem C108_right_at_once_partial (junk : Nat → Addr LId Nat) (ts : List (Nat × Nat)) {es : List Ev} {s : St}
    (h : run (start junk ts) es = .ok s) (hn : NoStaleGive (start junk ts) es)
    (he : ∀ e ∈ es, ∀ t, e ≠ .event t false) (hp : s.pend = false) (h0 : s.susp = 0) : Right s := by
  refine C108_right_unless_pending_partial ⟨junk, ts, es, h, hn⟩ hp ?_
  have key : ∀ (es : List Ev) (a : St), Prompt a → run a es = .ok s →
      (∀ e ∈ es, ∀ t, e ≠ .event t false) → Prompt s := by
    intro es
    induction es with
    | nil => intro a k h _; rw [← Except.ok.inj h]; exact k
    | cons e es ih =>
      intro a k h he
      rw [run] at h
      split at h
      · cases h
      · rename_i s1 h1
        exact ih s1 (step_prompt h1 (he e (by simp)) k) h (fun x hx => he x (by simp [hx]))
  have hstart : (start junk ts).yieldPending = false := by
    unfold start
    simp only
    have : ∀ (l : List (Nat × Nat)) (a : St), a.yieldPending = false →
        (l.foldl (fun (s : St) (t : Nat × Nat) =>
          if s.heap.container t.1 = none then createFirst s t.1 t.2 else s) a).yieldPending = false := by
      intro l
      induction l with
      | nil => intro a ha; exact ha
      | cons x l ih =>
        intro a ha
        rw [List.foldl_cons]
        apply ih
        split_ifs
        · exact ha
        · exact ha
    exact this _ _ rfl
  have := key es (start junk ts) (fun hy => by rw [hstart] at hy; cases hy) h he
  rcases Bool.eq_false_or_eq_true s.yieldPending with hy | hy
  · rcases this hy with h | h
    · rw [hp] at h; cases h
    · exact absurd h0 h
  · exact hy

/-- What a `StaleGive` does while the right task is running and a higher one can run as well
(at the inherited priority): no switch is asked for or owed, and a task above the running one is
left waiting. -/
theorem C108_stale_give {s s' : St} {t x : Nat} (h : Reached s) (hst : StaleGive s (.give (some t)))
    (hr : CanRun s s.current) (hb : isBlocked s t = true) (hx : CanRun s x) (hxc : x ≠ s.current)
    (hp : s.base s.current < s.prio x) (hs : step s (.give (some t)) = .ok s') :
    s'.pend = s.pend ∧ s'.yieldPending = s.yieldPending ∧ s'.current = s.current ∧ ¬ Right s' := by
  obtain ⟨c, I⟩ := h.inv
  obtain ⟨hne, u, hu, hle⟩ := hst
  cases hu
  obtain ⟨p, hpc⟩ := hr
  have hpp := I.core.prios _ _ hpc
  subst hpp
  have hrd : isReady s s.current = true := by simpa [isReady] using hpc
  simp only [step] at hs
  rw [if_pos ⟨hrd, fun y hy => by cases hy; exact hb⟩] at hs
  unfold give disinherit at hs
  rw [if_pos hne] at hs
  have hbl := I.core.bl s.current
  obtain ⟨h1, b, h', b', e1, e2, e3, c', I1, k1⟩ := move_spec I.core (p := s.base s.current) hpc
    (.inl rfl) (by have := I.core.lt s.current; omega) (Ne.symm hne) (Nat.le_refl _)
  rw [moveReady, e1] at hs
  simp only at hs
  rw [e2] at hs
  have htc : t ≠ s.current := by
    rintro rfl
    obtain ⟨_, l, hl, ho⟩ := blocked_spec hb
    rw [hpc] at hl; exact ho.ready _ (Option.some.inj hl).symm
  obtain ⟨px, hpx⟩ := hx
  have hxt : x ≠ t := by
    rintro rfl
    obtain ⟨_, l, hl, ho⟩ := blocked_spec hb
    rw [hpx] at hl; exact ho.ready _ (Option.some.inj hl).symm
  generalize hs1 : ({ s with heap := h', top := b', prio := Function.update s.prio s.current (s.base s.current) } : St) = s1 at hs
  have f1 : s1.heap.container = Function.update s.heap.container s.current (some (.ready (s.base s.current))) := by
    subst hs1; exact e3
  have f4 : s1.prio = Function.update s.prio s.current (s.base s.current) := by subst hs1; rfl
  have f3 : s1.current = s.current := by subst hs1; rfl
  have f5 : s1.pend = s.pend := by subst hs1; rfl
  have f6 : s1.yieldPending = s.yieldPending := by subst hs1; rfl
  have hlt : ¬ (Function.update s.prio s.current (s.base s.current) s.current <
      Function.update s.prio s.current (s.base s.current) t) := by
    rw [Function.update_self, Function.update_of_ne htc]; omega
  unfold event at hs
  by_cases h0 : s1.susp = 0
  · simp only [if_pos h0] at hs
    rcases hw : wake s1 t with e | s2
    · rw [hw] at hs; cases hs
    · have hfl := wake_flags hw
      unfold wake at hw
      rcases hrm : remove s1.heap t with e | ⟨k, hh⟩
      · rw [hrm] at hw; cases hw
      · rw [hrm] at hw
        have hcx : s2.heap.container x = s1.heap.container x := by
          simp only [Except.ok.injEq] at hw
          rw [← hw]
          simp only [addReady_container, Function.update_of_ne hxt]
          have : hh.container = Function.update s1.heap.container t none := by
            unfold remove at hrm
            split at hrm
            · cases hrm
            · simp only at hrm
              obtain ⟨_, rfl⟩ := Prod.mk.inj (Except.ok.inj hrm)
              simp only
              split_ifs <;> rfl
          rw [this, Function.update_of_ne hxt]
        have hpr : s2.prio = s1.prio ∧ s2.current = s1.current := by
          simp only [Except.ok.injEq] at hw
          rw [← hw]; exact ⟨rfl, rfl⟩
        rw [show wake s1 t = .ok s2 from by unfold wake; rw [hrm]; exact hw] at hs
        simp only [hpr.1, hpr.2, f4, f3, if_neg hlt, Except.ok.injEq, Bool.or_false] at hs
        subst hs
        refine ⟨hfl.2.1.trans f5, hfl.2.2.trans f6, rfl, fun hR => ?_⟩
        have := hR.2 x ⟨px, by simp only [hcx, f1, Function.update_of_ne hxc]; exact hpx⟩
        simp only [Function.update_self, Function.update_of_ne hxc] at this
        omega
  · simp only [if_neg h0, f4, f3, if_neg hlt, Except.ok.injEq, Bool.or_false] at hs
    subst hs
    refine ⟨f5, f6, rfl, fun hR => ?_⟩
    have := hR.2 x ⟨px, by simp only [f1, Function.update_of_ne hxc]; exact hpx⟩
    simp only [f4, f3, Function.update_self, Function.update_of_ne hxc] at this
    omega

/-- Nor do later ticks help, if they wake no task and the running one is alone at its priority. -/
theorem C108_ticks_do_not_help {s : St} (h : Reached s) (hr : CanRun s s.current) (hp : s.pend = false)
    (hy : s.yieldPending = false) (h0 : s.susp = 0)
    (ha : ∀ x, x ≠ s.current → CanRun s x → s.prio x ≠ s.prio s.current) (n : Nat) :
    run s (List.replicate n (.tick [])) = .ok s := by
  obtain ⟨c, I⟩ := h.inv
  induction n with
  | zero => rfl
  | succ n ih =>
    rw [List.replicate_succ, run]
    have hone : ¬ 1 < s.heap.count (.ready (s.prio s.current)) := by
      intro hc
      obtain ⟨x, hx, hxc⟩ := other_in_list I.core.world hc s.current
      exact ha x hx ⟨_, hxc⟩ (I.core.prios _ _ hxc)
    have : step s (.tick []) = .ok s := by
      simp only [step, if_pos h0, tickBody, wakeAll, hone, hy, decide_false, Bool.or_false]
      rw [← hy]
    rw [this]
    exact ih

/-! ## Examples -/

/-- Two tasks of priority 2, one of priority 4, and idle. -/
def three : List (Nat × Nat) := [(1, 2), (2, 2), (3, 4)]

/-- What a run leaves behind. -/
def look (ts : List (Nat × Nat)) (es : List Ev) : Option (Nat × Bool × Bool × BitVec 32) :=
  match run (start (fun _ => .mark .suspended) ts) es with
  | .error _ => none
  | .ok s => some (s.current, s.pend, s.yieldPending, s.top)

-- The highest task runs first; when it waits, the others get their turn; its wake-up preempts.
example : look three [] = some (3, false, false, 0b10101#32) := by decide +kernel
example : look three [.block (.until true 7), .switch] = some (1, false, false, 0b00101#32) := by
  decide +kernel
example : look three [.block (.until true 7), .switch, .tick [], .switch] = some (2, false, false, 0b00101#32) := by
  decide +kernel
example : look three [.block (.until true 7), .switch, .tick [3]] = some (1, true, false, 0b10101#32) := by
  decide +kernel
example : look three [.block (.until true 7), .switch, .tick [3], .switch] = some (3, false, false, 0b10101#32) := by
  decide +kernel

-- An interrupt routine that does not pass the wish on (sdc.c 121, spi.c 173, i2c.c 78): the task
-- of priority 4 waits until the next tick.
example : look three [.block .forever, .switch, .event 3 false] = some (1, false, true, 0b10101#32) := by
  decide +kernel
example : look three [.block .forever, .switch, .event 3 false, .tick [], .switch] =
    some (3, false, false, 0b10101#32) := by decide +kernel
example : look three [.block .forever, .switch, .event 3 true, .switch] =
    some (3, false, false, 0b10101#32) := by decide +kernel

-- An event while the scheduler is suspended takes effect when it is resumed.
example : look three [.block .forever, .switch, .suspendAll, .event 3 true] =
    some (1, true, true, 0b00101#32) := by decide +kernel
example : look three [.block .forever, .switch, .suspendAll, .event 3 true, .switch] =
    some (1, false, true, 0b00101#32) := by decide +kernel
example : look three [.block .forever, .switch, .suspendAll, .event 3 true, .switch, .resumeAll [[]], .switch] =
    some (3, false, false, 0b10101#32) := by decide +kernel

-- Inheritance: task 1 holds the mutex that task 3 waits for, so it runs before task 2.
example : look three [.block .forever, .switch, .event 3 true, .switch, .inherit 1, .block .forever, .switch] =
    some (1, false, false, 0b10101#32) := by decide +kernel
example : look three [.block .forever, .switch, .event 3 true, .switch, .inherit 1, .block .forever, .switch,
    .give (some 3), .switch] = some (3, false, false, 0b10101#32) := by decide +kernel

-- A `StaleGive`. Task 1 (own priority 4) has inherited 6 from task 3. Task 4, also of priority 6,
-- is running when the time limit of task 3 ends (the last tick), and task 1 is picked before task
-- 3. It gives the mutex back, which wakes task 2 of priority 3. Tasks 3 and 4 can run, but task 1
-- goes on at priority 4, and so it does after three more ticks.
def stale : List Ev :=
  [.block (.until false 9), .switch, .block (.until false 9), .switch, .block (.until false 2), .switch,
   .block .forever, .switch, .tick [3, 1], .switch, .inherit 1, .block (.until false 9), .switch,
   .event 4 true, .yield, .switch, .tick [3], .switch]

example : look [(1, 4), (2, 3), (3, 6), (4, 6)] stale = some (1, false, false, 0b1000001#32) := by decide +kernel
example : look [(1, 4), (2, 3), (3, 6), (4, 6)] (stale ++ [.give (some 2), .tick [], .tick [], .tick []]) =
    some (1, false, false, 0b1011001#32) := by decide +kernel

/-- Who was picked at priority 2. -/
def order (ts : List (Nat × Nat)) (es : List Ev) : List Nat :=
  picks 2 (start (fun _ => .mark .suspended) ts) es

-- Turns are strict while the same tasks can run.
example : order [(1, 2), (2, 2), (3, 2)] [.yield, .switch, .yield, .switch, .yield, .switch, .yield, .switch] =
    [1, 2, 3, 1] := by decide +kernel

-- From the third switch on, task 3 can run all the time and never more than two tasks can. Two
-- others are picked before it: no more are possible by `C107_fair` with `N = 2`.
example : order [(4, 2), (3, 2), (1, 2)] [.yield, .switch, .block .forever, .switch,
    .yield, .switch, .block .forever, .event 4 true, .switch, .yield, .switch] = [4, 3, 1, 4, 3] := by
  decide +kernel

-- `timeout` resets the bit of the wrong priority (tasks.c 4162, 4185). It does no harm because
-- the running task is in the list that the holder leaves.
example : look [(1, 2), (3, 4)] [.block .forever, .switch, .event 3 true, .switch, .inherit 1, .timeout 1 0] =
    some (3, false, false, 0b10101#32) := by decide +kernel

-- Called for a holder that is alone in its list, the next switch runs into the assertion in
-- `taskSELECT_HIGHEST_PRIORITY_TASK` (tasks.c 175).
example :
    let s := start (fun _ => .mark .suspended) [(1, 2), (3, 4)]
    (match timeout { s with base := Function.update s.base 3 0 } 3 0 with
      | .error _ => false
      | .ok s => match select s with
        | .error u => u = .assertFail
        | .ok _ => false) = true := by decide +kernel

end Verif.Ready
