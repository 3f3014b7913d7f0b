import Verif.Spec.Inherit
import Verif.Proofs.ReadyEff

set_option autoImplicit false

/-! # The invariant for mutexes and lent priorities -/

namespace Verif.Inherit

open Verif.Ready (isReady isBlocked CanRun Right)

theorem blocked_not_canRun {k : Ready.St} {t : Nat} (h : isBlocked k t = true) : ¬ CanRun k t := by
  rintro ⟨p, hp⟩
  unfold isBlocked at h
  rw [hp] at h
  cases h

theorem blocked_not_pending {k : Ready.St} {t : Nat} (h : isBlocked k t = true) : t ∉ k.pending :=
  (Ready.blocked_spec h).1

theorem blocked_congr {k k' : Ready.St} {t : Nat} (h : isBlocked k t = true)
    (hc : k'.heap.container t = k.heap.container t) (hp : t ∉ k'.pending) : isBlocked k' t = true := by
  unfold isBlocked at h ⊢
  rw [hc]
  split at h <;> simp_all

theorem canRun_ready {k : Ready.St} (hr : Ready.Reached k) {t : Nat} : CanRun k t ↔ isReady k t = true := by
  constructor
  · rintro ⟨p, hp⟩
    have := (Ready.C106_right_list hr hp).1
    subst this
    simpa [isReady] using hp
  · intro h
    exact ⟨_, Ready.isReady_spec h⟩

theorem base_le {k : Ready.St} (hr : Ready.Reached k) (t : Nat) : k.base t ≤ k.prio t := by
  obtain ⟨c, I⟩ := hr.inv
  exact I.core.bl t

/-- Sorted as `vListInsert` keeps the list. -/
def Desc (prio : Nat → Nat) (l : List Nat) : Prop := l.Pairwise (fun a b => prio b ≤ prio a)

theorem mem_place {prio : Nat → Nat} {t x : Nat} : ∀ {l : List Nat}, x ∈ place prio t l ↔ x = t ∨ x ∈ l
  | [] => by simp [place]
  | y :: l => by
    unfold place
    split_ifs
    · simp
    · simp only [List.mem_cons, mem_place (l := l)]
      tauto

theorem place_nodup {prio : Nat → Nat} {t : Nat} : ∀ {l : List Nat} (_ : l.Nodup) (_ : t ∉ l), (place prio t l).Nodup
  | [], _, _ => by simp [place]
  | y :: l, h, ht => by
    unfold place
    obtain ⟨h1, h2⟩ := List.nodup_cons.mp h
    split_ifs
    · exact List.nodup_cons.mpr ⟨ht, h⟩
    · refine List.nodup_cons.mpr ⟨?_, place_nodup h2 (by simp_all)⟩
      rw [mem_place]
      rintro (rfl | h')
      · simp at ht
      · exact h1 h'

theorem place_desc {prio : Nat → Nat} {t : Nat} : ∀ {l : List Nat} (_ : Desc prio l), Desc prio (place prio t l)
  | [], _ => by simp [place, Desc]
  | y :: l, h => by
    unfold place
    obtain ⟨h1, h2⟩ := List.pairwise_cons.mp h
    split_ifs with hlt
    · refine List.pairwise_cons.mpr ⟨?_, h⟩
      intro x hx
      rcases List.mem_cons.mp hx with rfl | hx
      · omega
      · have := h1 x hx; omega
    · refine List.pairwise_cons.mpr ⟨?_, place_desc h2⟩
      intro x hx
      rcases mem_place.mp hx with rfl | hx
      · omega
      · exact h1 x hx

theorem le_highest {prio : Nat → Nat} {l : List Nat} (h : Desc prio l) {x : Nat} (hx : x ∈ l) : prio x ≤ highest prio l := by
  cases l with
  | nil => cases hx
  | cons y l =>
    rcases List.mem_cons.mp hx with rfl | hx
    · exact Nat.le_refl _
    · exact (List.pairwise_cons.mp h).1 x hx

theorem desc_congr {p q : Nat → Nat} {l : List Nat} (h : Desc p l) (he : ∀ x ∈ l, q x = p x) : Desc q l := by
  unfold Desc at h ⊢
  refine h.imp_of_mem ?_
  intro a b ha hb hab
  rw [he a ha, he b hb]
  exact hab

/-- `R` is the set of mutexes for which the holder's priority is claimed. -/
structure J (limited : Nat → Bool) (R : Nat → Prop) (s : St) : Prop where
  reach : Ready.Reached s.k
  ord : (∀ m, R m) → Ready.Orderly s.k
  cur : s.k.heap.container s.k.current ≠ none
  held1 : ∀ m t, s.holder m = some t → s.held t = 1
  exist : ∀ m t, s.holder m = some t → Ready.Alive s.k t
  inj : ∀ m m' t, s.holder m = some t → s.holder m' = some t → m = m'
  holds : ∀ t, s.held t ≠ 0 → ∃ m, s.holder m = some t
  call0 : ∀ t c, s.call t = some c → s.held t = 0
  callE : ∀ t c, s.call t = some c → Ready.Alive s.k t
  failL : ∀ t c, s.call t = some c → c.failed = true → limited c.mutex = true
  w1 : ∀ m t, t ∈ s.waiting m → ∃ i, s.call t = some ⟨m, i, false⟩
  blk : ∀ m t, t ∈ s.waiting m → isBlocked s.k t = true
  nodup : ∀ m, (s.waiting m).Nodup
  desc : ∀ m, Desc s.k.prio (s.waiting m)
  forever : ∀ m t, limited m = false → t ∈ s.waiting m → s.k.heap.container t = some .suspended
  p1 : ∀ t, s.held t = 0 → s.k.prio t = s.k.base t
  p2 : ∀ m t w, R m → s.holder m = some t → w ∈ s.waiting m →
    s.k.prio w ≤ s.k.prio t ∧ (s.call w = some ⟨m, true, false⟩ ∨ s.k.prio w ≤ s.k.base t)
  p3 : ∀ m t, s.holder m = some t → s.k.prio t ≠ s.k.base t →
    ∃ h f, s.call h = some ⟨m, true, f⟩ ∧ s.k.prio h = s.k.prio t ∧
      (h ∈ s.waiting m ∨ (limited m = true ∧ CanRun s.k h))
  s8 : ∀ m w, R m → s.holder m = none → w ∈ s.waiting m →
    ∃ u i, s.call u = some ⟨m, i, false⟩ ∧ CanRun s.k u ∧ s.k.prio w ≤ s.k.prio u ∧
      ((s.k.pend = true ∧ s.k.susp = 0) ∨ s.k.prio u ≤ s.k.prio s.k.current)

variable {limited : Nat → Bool} {R : Nat → Prop} {s : St}

theorem runs_spec {k : Ready.St} (h : runs k = true) : isReady k k.current = true ∧ k.pend = false ∧ k.susp = 0 := by
  simp only [runs, Bool.and_eq_true, Bool.not_eq_true', decide_eq_true_eq] at h
  exact ⟨h.1.1, h.1.2, h.2⟩

theorem J.start (junk : Nat → KList.Addr Ready.LId Nat) (ts : List (Nat × Nat)) : J limited R (start junk ts) := by
  have hr : Ready.Orderly (Ready.start junk ts) := ⟨junk, ts, [], rfl, trivial⟩
  obtain ⟨c0, I0, hh⟩ := Ready.inv_start junk ts
  have hc : CanRun (Ready.start junk ts) (Ready.start junk ts).current := ((Ready.highest_iff I0.core).mp hh).1
  refine ⟨hr.reached, fun _ => hr, ?_, fun m t h => (by cases h), fun m t h => (by cases h), fun m m' t h => (by cases h),
    fun t h => absurd rfl h, fun t c h => (by cases h), fun t c h => (by cases h), fun t c h => (by cases h),
    fun m t h => (by cases h), fun m t h => (by cases h), fun m => List.nodup_nil, fun m => List.Pairwise.nil,
    fun m t _ h => (by cases h), ?_, fun m t w _ h => (by cases h), fun m t h => (by cases h), fun m w _ _ h => (by cases h)⟩
  · obtain ⟨p, h⟩ := hc
    show (Ready.start junk ts).heap.container (Ready.start junk ts).current ≠ none
    rw [h]; simp
  · intro t _
    show (Ready.start junk ts).prio t = (Ready.start junk ts).base t
    unfold Ready.start
    simp only
    have : ∀ (l : List (Nat × Nat)) (a : Ready.St), a.prio t = a.base t →
        (l.foldl (fun (s : Ready.St) (t : Nat × Nat) => if s.heap.container t.1 = none then Ready.createFirst s t.1 t.2 else s) a).prio t =
        (l.foldl (fun (s : Ready.St) (t : Nat × Nat) => if s.heap.container t.1 = none then Ready.createFirst s t.1 t.2 else s) a).base t := by
      intro l
      induction l with
      | nil => intro a h; exact h
      | cons x l ih =>
        intro a h
        rw [List.foldl_cons]
        apply ih
        split_ifs
        · unfold Ready.createFirst Ready.addReady
          simp only
          by_cases hx : t = x.1
          · subst hx; simp
          · rw [Function.update_of_ne hx, Function.update_of_ne hx]; exact h
        · exact h
    exact this _ _ rfl

theorem J.sched (J0 : J limited R s) {e : Ready.Ev} (ha : allowed s e = true) :
    ∃ s', sched s e = .ok s' ∧ J limited R s' := by
  obtain ⟨c, I⟩ := J0.reach.inv
  obtain ⟨k', c', h1, I', _⟩ := Ready.step_spec (j := False) I e False.elim
  have hpl : Ready.Plain e := by cases e <;> simp_all [allowed, Ready.Plain]
  have E := Ready.fx_step I hpl h1
  have hr' : Ready.Reached k' := J0.reach.step h1
  refine ⟨_, by rw [Inherit.sched, h1], ?_⟩
  have hblk : ∀ w, e = .block w → s.call s.k.current = none := by
    rintro w rfl; simp [allowed] at ha; exact ha.2
  have hdel : e = .delete → s.call s.k.current = none ∧ s.held s.k.current = 0 := by
    rintro rfl; simp [allowed] at ha; exact ⟨ha.1.2, ha.2⟩
  have hev : ∀ x a, e = .event x a → s.call x = none := by
    rintro x a rfl; simpa [allowed] using ha
  have hno : ∀ x, e = .notify x → s.call x = none := by
    rintro x rfl; simpa [allowed] using ha
  -- tasks that are in a call and can run stay able to run
  have hrun : ∀ x c, s.call x = some c → CanRun s.k x → CanRun k' x := by
    intro x c hx hcr
    rcases E.moved x with h | h | ⟨h, _, ⟨w, hw⟩ | hw⟩ | h
    · exact (Ready.canRun_congr h).mpr hcr
    · exact h
    · have := hblk w hw
      rw [← h, hx] at this
      cases this
    · have := (hdel hw).1
      rw [← h, hx] at this
      cases this
    · exact absurd h (J0.callE x c hx).2
  have hcont : ∀ m x, x ∈ s.waiting m → isReady k' x = false → k'.heap.container x = s.k.heap.container x := by
    intro m x hx hn
    rcases E.moved x with h | h | ⟨h, h', _⟩ | h
    · exact h
    · rw [canRun_ready hr', hn] at h; cases h
    · exact absurd h' (blocked_not_canRun (J0.blk m x hx))
    · obtain ⟨i, hi⟩ := J0.w1 m x hx
      exact absurd h (J0.callE x _ hi).2
  have hpb : ∀ x c, s.call x = some c → k'.prio x = s.k.prio x ∧ k'.base x = s.k.base x :=
    fun x c h => E.old x (J0.callE x c h).1
  have hmem : ∀ m x, x ∈ (s.waiting m).filter (fun t => !isReady k' t) ↔ x ∈ s.waiting m ∧ isReady k' x = false := by
    intro m x; simp [List.mem_filter]
  have hwp : ∀ m x, x ∈ s.waiting m → k'.prio x = s.k.prio x := by
    intro m x hx
    obtain ⟨i, hi⟩ := J0.w1 m x hx
    exact (hpb x _ hi).1
  refine ⟨hr', ?_, ?_, J0.held1, ?_, J0.inj, J0.holds, J0.call0, ?_, J0.failL, ?_, ?_, ?_, ?_, ?_, ?_, ?_, ?_, ?_⟩
  · intro h
    refine (J0.ord h).step ?_ h1
    rintro ⟨_, t, ht, _⟩
    rw [ht] at hpl
    exact hpl
  · rcases E.cur with h | h
    · dsimp only; rw [h]; exact E.here J0.cur
    · obtain ⟨⟨p, hp⟩, _⟩ := (Ready.C106_switch_right J0.reach h1 h).1
      dsimp only; rw [hp]; simp
  · intro m t h
    rcases E.alive t (J0.exist m t h) with ha | ⟨hc, hd⟩
    · exact ha
    · have h0 := J0.held1 m t h
      rw [hc, (hdel hd).2] at h0; cases h0
  · intro t c h
    rcases E.alive t (J0.callE t c h) with ha | ⟨hc, hd⟩
    · exact ha
    · rw [hc, (hdel hd).1] at h; cases h
  · intro m t ht; exact J0.w1 m t ((hmem m t).mp ht).1
  · intro m t ht
    obtain ⟨h, hn⟩ := (hmem m t).mp ht
    refine blocked_congr (J0.blk m t h) (hcont m t h hn) ?_
    intro hp
    rcases E.pend t hp with hp | ⟨a, hp⟩
    · exact blocked_not_pending (J0.blk m t h) hp
    · obtain ⟨i, hi⟩ := J0.w1 m t h
      rw [hev t a hp] at hi; cases hi
  · intro m; exact (J0.nodup m).filter _
  · intro m
    refine desc_congr ((J0.desc m).sublist List.filter_sublist) ?_
    intro x hx
    exact hwp m x ((hmem m x).mp hx).1
  · intro m t hl ht
    obtain ⟨h, hn⟩ := (hmem m t).mp ht
    dsimp only
    rw [hcont m t h hn]; exact J0.forever m t hl h
  · intro t h; exact E.own t (J0.p1 t h)
  · intro m t w hR hm hw
    obtain ⟨h, _⟩ := (hmem m w).mp hw
    have ht := E.old t (J0.exist m t hm).1
    dsimp only
    rw [hwp m w h, ht.1, ht.2]
    exact J0.p2 m t w hR hm h
  · intro m t hm hne
    have ht := E.old t (J0.exist m t hm).1
    dsimp only at hne ⊢
    rw [ht.1, ht.2] at hne
    obtain ⟨h, f, a1, a2, a3⟩ := J0.p3 m t hm hne
    refine ⟨h, f, a1, by rw [(hpb h _ a1).1, ht.1]; exact a2, ?_⟩
    rcases a3 with a3 | ⟨a3, a4⟩
    · rcases Bool.eq_false_or_eq_true (isReady k' h) with hh | hh
      · right
        refine ⟨?_, (canRun_ready hr').mpr hh⟩
        by_contra hl
        have hl' : limited m = false := by simpa using hl
        have hs := E.susp h (J0.forever m h hl' a3) (blocked_not_pending (J0.blk m h a3))
          (fun a ha => by rw [hev h a ha] at a1; cases a1) (fun ha => by rw [hno h ha] at a1; cases a1)
        have := Ready.isReady_spec hh
        rw [hs] at this
        cases this
      · exact .inl ((hmem m h).mpr ⟨a3, hh⟩)
    · exact .inr ⟨a3, hrun h _ a1 a4⟩
  · intro m w hR hm hw
    obtain ⟨h, _⟩ := (hmem m w).mp hw
    obtain ⟨u, i, a1, a2, a3, a4⟩ := J0.s8 m w hR hm h
    have hu := (hpb u _ a1).1
    refine ⟨u, i, a1, hrun u _ a1 a2, by dsimp only; rw [hwp m w h, hu]; exact a3, ?_⟩
    dsimp only
    by_cases hsw : Ready.Switches s.k e
    · right
      exact (Ready.C106_switch_right J0.reach h1 hsw).1.2 u (hrun u _ a1 a2)
    · rcases a4 with ⟨b1, b2⟩ | a4
      · left
        refine E.flag b1 b2 ?_ hsw
        rintro rfl
        simp [allowed, mayAct, b1, b2] at ha
      · right
        rcases E.cur with hc | hc
        · rw [hc, hu, (E.old _ J0.cur).1]; exact a4
        · exact absurd hc hsw

theorem J.check (J0 : J limited R s) {c : Call} (hc : s.call s.k.current = some c) (hr : runs s.k = true)
    (hl : limited c.mutex = true) (hh : s.holder c.mutex ≠ none) :
    J limited R { s with call := Function.update s.call s.k.current (some { c with failed := true }) } := by
  obtain ⟨hready, _, _⟩ := runs_spec hr
  have hcw : ∀ m x, x ∈ s.waiting m → x ≠ s.k.current := by
    rintro m x hx rfl
    exact blocked_not_canRun (J0.blk m _ hx) ((canRun_ready J0.reach).mpr hready)
  refine ⟨J0.reach, J0.ord, J0.cur, J0.held1, J0.exist, J0.inj, J0.holds, ?_, ?_, ?_, ?_, J0.blk, J0.nodup, J0.desc,
    J0.forever, J0.p1, ?_, ?_, ?_⟩
  · intro t d hd
    dsimp only at hd
    by_cases ht : t = s.k.current
    · subst ht; exact J0.call0 _ _ hc
    · rw [Function.update_of_ne ht] at hd; exact J0.call0 t d hd
  · intro t d hd
    dsimp only at hd
    by_cases ht : t = s.k.current
    · subst ht; exact J0.callE _ _ hc
    · rw [Function.update_of_ne ht] at hd; exact J0.callE t d hd
  · intro t d hd hf
    dsimp only at hd
    by_cases ht : t = s.k.current
    · subst ht
      rw [Function.update_self] at hd
      cases hd; exact hl
    · rw [Function.update_of_ne ht] at hd; exact J0.failL t d hd hf
  · intro m t ht
    dsimp only
    rw [Function.update_of_ne (hcw m t ht)]; exact J0.w1 m t ht
  · intro m t w hR hm hw
    dsimp only
    rw [Function.update_of_ne (hcw m w hw)]; exact J0.p2 m t w hR hm hw
  · intro m t hm hne
    obtain ⟨h, f, a1, a2, a3⟩ := J0.p3 m t hm hne
    by_cases hh : h = s.k.current
    · subst hh
      rw [hc] at a1
      cases a1
      exact ⟨s.k.current, true, by dsimp only; rw [Function.update_self], a2, a3⟩
    · exact ⟨h, f, by dsimp only; rw [Function.update_of_ne hh]; exact a1, a2, a3⟩
  · intro m w hR hm hw
    obtain ⟨u, i, a1, a2, a3, a4⟩ := J0.s8 m w hR hm hw
    refine ⟨u, i, ?_, a2, a3, a4⟩
    have : u ≠ s.k.current := by
      rintro rfl
      rw [hc] at a1
      cases a1
      exact hh hm
    dsimp only
    rw [Function.update_of_ne this]; exact a1

/-- Taking a free mutex. -/
theorem J.takeFree (J0 : J limited R s) {m : Nat} (hr : runs s.k = true) (h0 : s.held s.k.current = 0)
    (hcall : ∀ c ∈ s.call s.k.current, c.mutex = m ∧ c.failed = false) (hm : s.holder m = none) :
    J limited R { s with holder := Function.update s.holder m (some s.k.current)
                         call := Function.update s.call s.k.current none
                         held := Function.update s.held s.k.current (s.held s.k.current + 1) } := by
  obtain ⟨hready, hpend, _⟩ := runs_spec hr
  have hcw : ∀ m x, x ∈ s.waiting m → x ≠ s.k.current := by
    rintro m x hx rfl
    exact blocked_not_canRun (J0.blk m _ hx) ((canRun_ready J0.reach).mpr hready)
  have hcc : ∀ t c, Function.update s.call s.k.current none t = some c → t ≠ s.k.current ∧ s.call t = some c := by
    intro t c h
    by_cases ht : t = s.k.current
    · subst ht; rw [Function.update_self] at h; cases h
    · rw [Function.update_of_ne ht] at h; exact ⟨ht, h⟩
  have hnc : ∀ m', s.holder m' ≠ some s.k.current := by
    intro m' h
    have := J0.held1 m' _ h
    omega
  have hho : ∀ m' t, Function.update s.holder m (some s.k.current) m' = some t →
      (m' = m ∧ t = s.k.current) ∨ (m' ≠ m ∧ t ≠ s.k.current ∧ s.holder m' = some t) := by
    intro m' t h
    by_cases hmm : m' = m
    · subst hmm; rw [Function.update_self] at h; cases h; exact .inl ⟨rfl, rfl⟩
    · rw [Function.update_of_ne hmm] at h
      exact .inr ⟨hmm, by rintro rfl; exact hnc _ h, h⟩
  refine ⟨J0.reach, J0.ord, J0.cur, ?_, ?_, ?_, ?_, ?_, ?_, ?_, ?_, J0.blk, J0.nodup, J0.desc, J0.forever, ?_, ?_, ?_, ?_⟩
  · intro m' t h
    dsimp only at h ⊢
    rcases hho m' t h with ⟨_, rfl⟩ | ⟨_, ht, h⟩
    · rw [Function.update_self, h0]
    · rw [Function.update_of_ne ht]; exact J0.held1 m' t h
  · intro m' t h
    rcases hho m' t h with ⟨_, rfl⟩ | ⟨_, ht, h⟩
    · exact ((canRun_ready J0.reach).mpr (runs_spec hr).1).alive
    · exact J0.exist m' t h
  · intro a b t ha hb
    rcases hho a t ha with ⟨ha1, ha2⟩ | ⟨ha1, ha2, ha3⟩ <;> rcases hho b t hb with ⟨hb1, hb2⟩ | ⟨hb1, hb2, hb3⟩
    · rw [ha1, hb1]
    · exact absurd ha2 hb2
    · exact absurd hb2 ha2
    · exact J0.inj a b t ha3 hb3
  · intro t ht
    dsimp only at ht ⊢
    by_cases htc : t = s.k.current
    · exact ⟨m, by rw [Function.update_self, htc]⟩
    · rw [Function.update_of_ne htc] at ht
      obtain ⟨m', h⟩ := J0.holds t ht
      refine ⟨m', ?_⟩
      rw [Function.update_of_ne (by rintro rfl; rw [hm] at h; cases h)]
      exact h
  · intro t c h
    obtain ⟨ht, h⟩ := hcc t c h
    dsimp only
    rw [Function.update_of_ne ht]; exact J0.call0 t c h
  · intro t c h
    exact J0.callE t c (hcc t c h).2
  · intro t c h
    exact J0.failL t c (hcc t c h).2
  · intro m' t ht
    dsimp only
    rw [Function.update_of_ne (hcw m' t ht)]; exact J0.w1 m' t ht
  · intro t ht
    dsimp only at ht
    by_cases htc : t = s.k.current
    · subst htc; exact J0.p1 _ h0
    · rw [Function.update_of_ne htc] at ht; exact J0.p1 t ht
  · intro m' t w hR h hw
    dsimp only
    rw [Function.update_of_ne (hcw m' w hw)]
    rcases hho m' t h with ⟨rfl, rfl⟩ | ⟨_, _, h⟩
    · obtain ⟨u, i, _, _, a3, a4⟩ := J0.s8 m' w hR hm hw
      have := J0.p1 _ h0
      rcases a4 with ⟨a4, _⟩ | a4
      · rw [hpend] at a4; cases a4
      · exact ⟨by omega, .inr (by omega)⟩
    · exact J0.p2 m' t w hR h hw
  · intro m' t h hne
    rcases hho m' t h with ⟨rfl, rfl⟩ | ⟨hmm, _, h⟩
    · exact absurd (J0.p1 _ h0) hne
    · obtain ⟨l, f, a1, a2, a3⟩ := J0.p3 m' t h hne
      refine ⟨l, f, ?_, a2, a3⟩
      dsimp only
      rw [Function.update_of_ne]
      · exact a1
      · rintro rfl
        exact hmm (hcall _ a1).1
  · intro m' w hR h hw
    dsimp only at h
    have hmm : m' ≠ m := by rintro rfl; rw [Function.update_self] at h; cases h
    rw [Function.update_of_ne hmm] at h
    obtain ⟨u, i, a1, a2, a3, a4⟩ := J0.s8 m' w hR h hw
    refine ⟨u, i, ?_, a2, a3, a4⟩
    dsimp only
    rw [Function.update_of_ne]
    · exact a1
    · rintro rfl
      exact hmm (hcall _ a1).1

/-- Waiting for a mutex. -/
theorem J.takeWait (J0 : J limited R s) {m h : Nat} {w : Ready.Wait} (hr : runs s.k = true)
    (hidle : s.k.current ≠ Ready.idle) (h0 : s.held s.k.current = 0)
    (hcall : ∀ c ∈ s.call s.k.current, c.mutex = m ∧ c.failed = false) (hm : s.holder m = some h)
    (hl : limited m = true ∨ w = .forever) :
    ∃ s', take s m w = .ok s' ∧ J limited R s' := by
  obtain ⟨hready, hpend, hsusp⟩ := runs_spec hr
  have hrun : CanRun s.k s.k.current := (canRun_ready J0.reach).mpr hready
  obtain ⟨c, I⟩ := J0.reach.inv
  have hh1 := J0.held1 m h hm
  have hhc : h ≠ s.k.current := by rintro rfl; omega
  -- the holder inherits
  obtain ⟨k1, c1, e1, I1, _⟩ := Ready.inherit_spec I.toInv0 hhc
  obtain ⟨S1, p1, q1⟩ := Ready.inherit_all e1
  have st1 : Ready.step s.k (.inherit h) = .ok k1 := by simp only [Ready.step, if_neg hhc, e1]
  have r1 : Ready.Reached k1 := J0.reach.step st1
  have hready1 : isReady k1 k1.current = true := by
    rw [← canRun_ready r1, S1.current, S1.run]; exact hrun
  have hidle1 : k1.current ≠ Ready.idle := by rw [S1.current]; exact hidle
  -- the running task blocks
  obtain ⟨k2, c2, e2, I2, _⟩ := Ready.block_spec I1 w hready1 hidle1
  obtain ⟨b1, b2, b3, b4, b5, b6, b7, b8, l, b9, b10⟩ := Ready.block_all e2
  have st2 : Ready.step k1 (.block w) = .ok k2 := by simp only [Ready.step, hready1, true_and, if_pos hidle1, e2]
  have r2 : Ready.Reached k2 := r1.step st2
  rw [S1.current] at b3 b7 b8 b9
  have hsusp2 : k2.susp = 0 := by rw [b5, S1.susp]; exact hsusp
  have hpe2 : k2.pending = [] := I2.empty hsusp2
  have hprio : k2.prio = Function.update s.k.prio h (max (s.k.prio h) (s.k.prio s.k.current)) := by rw [b1, p1]
  have hbase : k2.base = s.k.base := by rw [b2, S1.base]
  have hcont : ∀ x, x ≠ s.k.current → ¬ CanRun s.k x → k2.heap.container x = s.k.heap.container x := by
    intro x hx hx'
    rw [b7 x hx, S1.cont x hx']
  have hrn : ∀ x, x ≠ s.k.current → (CanRun k2 x ↔ CanRun s.k x) := by
    intro x hx
    exact (Ready.canRun_congr (b7 x hx)).trans (S1.run x)
  have hex : ∀ x, Ready.Alive s.k x → Ready.Alive k2 x := by
    intro x hx
    unfold Ready.Alive
    by_cases hxc : x = s.k.current
    · rw [hxc, b9]; rcases b10 with rfl | ⟨b, rfl⟩ <;> simp
    · rw [b7 x hxc]; exact S1.alive x hx
  have hcblk : isBlocked k2 s.k.current = true := by
    unfold isBlocked
    rw [b9, hpe2]
    rcases b10 with rfl | ⟨b, rfl⟩ <;> simp
  have hcw : ∀ m x, x ∈ s.waiting m → x ≠ s.k.current := by
    rintro m x hx rfl
    exact blocked_not_canRun (J0.blk m _ hx) hrun
  have hcp : ∀ x c, s.call x = some c → k2.prio x = s.k.prio x := by
    intro x c hx
    rw [hprio, Function.update_of_ne]
    rintro rfl
    have := J0.call0 _ _ hx
    omega
  have hwp : ∀ m x, x ∈ s.waiting m → k2.prio x = s.k.prio x := by
    intro m x hx
    obtain ⟨i, hi⟩ := J0.w1 m x hx
    exact hcp x _ hi
  have hcurp : k2.prio s.k.current = s.k.prio s.k.current := by rw [hprio, Function.update_of_ne hhc.symm]
  have hph : k2.prio h = max (s.k.prio h) (s.k.prio s.k.current) := by rw [hprio, Function.update_self]
  have hbl := base_le J0.reach h
  unfold take
  simp only [hm, e1, e2]
  refine ⟨_, rfl, ?_⟩
  generalize hinh : (decide (s.k.prio h < s.k.prio s.k.current) || decide (s.k.base h < s.k.prio s.k.current)) = inh
  have hwm : ∀ m' x, x ∈ Function.update s.waiting m (place s.k.prio s.k.current (s.waiting m)) m' →
      (m' = m ∧ x = s.k.current) ∨ (x ≠ s.k.current ∧ x ∈ s.waiting m') := by
    intro m' x hx
    by_cases hmm : m' = m
    · subst hmm
      rw [Function.update_self] at hx
      rcases mem_place.mp hx with h | h
      · exact .inl ⟨rfl, h⟩
      · exact .inr ⟨hcw _ _ h, h⟩
    · rw [Function.update_of_ne hmm] at hx
      exact .inr ⟨hcw _ _ hx, hx⟩
  have hwin : s.k.current ∈ Function.update s.waiting m (place s.k.prio s.k.current (s.waiting m)) m := by
    rw [Function.update_self]; exact mem_place.mpr (.inl rfl)
  have hwold : ∀ m' x, x ∈ s.waiting m' → x ∈ Function.update s.waiting m (place s.k.prio s.k.current (s.waiting m)) m' := by
    intro m' x hx
    by_cases hmm : m' = m
    · subst hmm; rw [Function.update_self]; exact mem_place.mpr (.inr hx)
    · rw [Function.update_of_ne hmm]; exact hx
  have hcc : ∀ x d, Function.update s.call s.k.current (some ⟨m, inh, false⟩) x = some d →
      (x = s.k.current ∧ d = ⟨m, inh, false⟩) ∨ (x ≠ s.k.current ∧ s.call x = some d) := by
    intro x d hx
    by_cases hxc : x = s.k.current
    · subst hxc; rw [Function.update_self] at hx; cases hx; exact .inl ⟨rfl, rfl⟩
    · rw [Function.update_of_ne hxc] at hx; exact .inr ⟨hxc, hx⟩
  refine ⟨r2, ?_, ?_, J0.held1, fun a t ht => hex t (J0.exist a t ht), J0.inj, J0.holds, ?_, ?_, ?_, ?_, ?_, ?_, ?_, ?_, ?_, ?_, ?_, ?_⟩
  · intro hR
    exact ((J0.ord hR).step (by rintro ⟨_, t, ht, _⟩; cases ht) st1).step (by rintro ⟨_, t, ht, _⟩; cases ht) st2
  · dsimp only; rw [b3]; exact (hex _ hrun.alive).1
  · intro x d hx
    rcases hcc x d hx with ⟨rfl, rfl⟩ | ⟨_, hx⟩
    · exact h0
    · exact J0.call0 x d hx
  · intro x d hx
    rcases hcc x d hx with ⟨rfl, rfl⟩ | ⟨_, hx⟩
    · exact hex _ hrun.alive
    · exact hex _ (J0.callE x d hx)
  · intro x d hx hf
    rcases hcc x d hx with ⟨rfl, rfl⟩ | ⟨_, hx⟩
    · cases hf
    · exact J0.failL x d hx hf
  · intro m' x hx
    dsimp only
    rcases hwm m' x hx with ⟨rfl, rfl⟩ | ⟨hxc, hx⟩
    · exact ⟨inh, by rw [Function.update_self]⟩
    · rw [Function.update_of_ne hxc]; exact J0.w1 m' x hx
  · intro m' x hx
    rcases hwm m' x hx with ⟨rfl, rfl⟩ | ⟨hxc, hx⟩
    · exact hcblk
    · refine blocked_congr (J0.blk m' x hx) (hcont x hxc (blocked_not_canRun (J0.blk m' x hx))) ?_
      rw [hpe2]; simp
  · intro m'
    dsimp only
    by_cases hmm : m' = m
    · subst hmm
      rw [Function.update_self]
      exact place_nodup (J0.nodup m') (fun hx => hcw _ _ hx rfl)
    · rw [Function.update_of_ne hmm]; exact J0.nodup m'
  · intro m'
    dsimp only
    by_cases hmm : m' = m
    · subst hmm
      rw [Function.update_self]
      refine desc_congr (place_desc (J0.desc m')) ?_
      intro x hx
      rcases mem_place.mp hx with rfl | hx
      · exact hcurp
      · exact hwp _ _ hx
    · rw [Function.update_of_ne hmm]
      exact desc_congr (J0.desc m') (fun x hx => hwp _ _ hx)
  · intro m' x hlm hx
    rcases hwm m' x hx with ⟨rfl, rfl⟩ | ⟨hxc, hx⟩
    · rcases hl with hl | hl
      · rw [hl] at hlm; cases hlm
      · exact b8 hl
    · dsimp only
      rw [hcont x hxc (blocked_not_canRun (J0.blk m' x hx))]; exact J0.forever m' x hlm hx
  · intro t ht
    dsimp only at ht ⊢
    have : t ≠ h := by rintro rfl; omega
    rw [hprio, hbase, Function.update_of_ne this]; exact J0.p1 t ht
  · intro m' t x hR ht hx
    dsimp only at ht ⊢
    rw [hbase]
    rcases hwm m' x hx with ⟨rfl, rfl⟩ | ⟨hxc, hx⟩
    · rw [hm] at ht
      cases ht
      rw [hcurp, hph, Function.update_self]
      refine ⟨by omega, ?_⟩
      rcases Bool.eq_false_or_eq_true inh with hi | hi
      · subst hi; exact .inl rfl
      · right
        rw [hi] at hinh
        simp at hinh
        exact hinh.2
    · rw [Function.update_of_ne hxc, hwp m' x hx]
      obtain ⟨a1, a2⟩ := J0.p2 m' t x hR ht hx
      refine ⟨?_, a2⟩
      by_cases hth : t = h
      · subst hth; rw [hph]; omega
      · rw [hprio, Function.update_of_ne hth]; exact a1
  · intro m' t ht hne
    dsimp only at ht hne ⊢
    by_cases hth : t = h
    · subst hth
      have : m' = m := J0.inj _ _ _ ht hm
      subst this
      rw [hph, hbase] at hne
      rw [hph]
      by_cases hlt : s.k.prio t < s.k.prio s.k.current
      · refine ⟨s.k.current, false, ?_, by rw [hcurp]; omega, .inl hwin⟩
        have : inh = true := by rw [← hinh]; simp [hlt]
        rw [Function.update_self, this]
      · obtain ⟨u, f, a1, a2, a3⟩ := J0.p3 m' t ht (by omega)
        by_cases huc : u = s.k.current
        · subst huc
          refine ⟨s.k.current, false, ?_, by rw [hcurp]; omega, .inl hwin⟩
          have : inh = true := by rw [← hinh]; simp; omega
          rw [Function.update_self, this]
        · refine ⟨u, f, by rw [Function.update_of_ne huc]; exact a1, by rw [hcp u _ a1]; omega, ?_⟩
          rcases a3 with a3 | ⟨a3, a4⟩
          · exact .inl (hwold _ _ a3)
          · exact .inr ⟨a3, (hrn u huc).mpr a4⟩
    · have hmm : m' ≠ m := by rintro rfl; rw [hm] at ht; cases ht; exact hth rfl
      have htp : k2.prio t = s.k.prio t := by rw [hprio, Function.update_of_ne hth]
      rw [htp, hbase] at hne
      obtain ⟨u, f, a1, a2, a3⟩ := J0.p3 m' t ht hne
      have huc : u ≠ s.k.current := by rintro rfl; exact hmm (hcall _ a1).1
      refine ⟨u, f, by rw [Function.update_of_ne huc]; exact a1, by rw [hcp u _ a1, htp]; exact a2, ?_⟩
      rcases a3 with a3 | ⟨a3, a4⟩
      · exact .inl (hwold _ _ a3)
      · exact .inr ⟨a3, (hrn u huc).mpr a4⟩
  · intro m' x hR ht hx
    dsimp only at ht ⊢
    rcases hwm m' x hx with ⟨rfl, rfl⟩ | ⟨hxc, hx⟩
    · rw [hm] at ht; cases ht
    · obtain ⟨u, i, a1, a2, a3, a4⟩ := J0.s8 m' x hR ht hx
      have huc : u ≠ s.k.current := by
        rintro rfl
        have := (hcall _ a1).1
        subst this
        rw [hm] at ht; cases ht
      exact ⟨u, i, by rw [Function.update_of_ne huc]; exact a1, (hrn u huc).mpr a2,
        by rw [hwp _ _ hx, hcp u _ a1]; exact a3, .inl ⟨b4, hsusp2⟩⟩

/-- Giving up. -/
theorem J.expire (J0 : J limited R s) (hlr : ∀ m, limited m = true → R m) {c : Call}
    (hc : s.call s.k.current = some c) (hr : runs s.k = true) (hf : c.failed = true) :
    ∃ s', expire s c = .ok s' ∧ J limited R s' := by
  obtain ⟨hready, hpend, hsusp⟩ := runs_spec hr
  have hrun : CanRun s.k s.k.current := (canRun_ready J0.reach).mpr hready
  have hR : R c.mutex := hlr _ (J0.failL _ _ hc hf)
  have h0 := J0.call0 _ _ hc
  have hcw : ∀ m x, x ∈ s.waiting m → x ≠ s.k.current := by
    rintro m x hx rfl
    exact blocked_not_canRun (J0.blk m _ hx) hrun
  have hcc : ∀ t d, Function.update s.call s.k.current none t = some d → t ≠ s.k.current ∧ s.call t = some d := by
    intro t d h
    by_cases ht : t = s.k.current
    · subst ht; rw [Function.update_self] at h; cases h
    · rw [Function.update_of_ne ht] at h; exact ⟨ht, h⟩
  -- nothing but the end of the call
  have quiet : (∀ t, s.holder c.mutex = some t → c.inherited = false) →
      J limited R { s with call := Function.update s.call s.k.current none } := by
    intro hq
    refine ⟨J0.reach, J0.ord, J0.cur, J0.held1, J0.exist, J0.inj, J0.holds, fun t d h => J0.call0 t d (hcc t d h).2,
      fun t d h => J0.callE t d (hcc t d h).2, fun t d h => J0.failL t d (hcc t d h).2, ?_, J0.blk, J0.nodup, J0.desc,
      J0.forever, J0.p1, ?_, ?_, ?_⟩
    · intro m t ht
      dsimp only
      rw [Function.update_of_ne (hcw m t ht)]; exact J0.w1 m t ht
    · intro m t w hRm hm hw
      dsimp only
      rw [Function.update_of_ne (hcw m w hw)]; exact J0.p2 m t w hRm hm hw
    · intro m t hm hne
      obtain ⟨h, f, a1, a2, a3⟩ := J0.p3 m t hm hne
      refine ⟨h, f, ?_, a2, a3⟩
      dsimp only
      rw [Function.update_of_ne]
      · exact a1
      · rintro rfl
        rw [hc] at a1
        cases a1
        exact absurd (hq t hm) (by simp)
    · intro m w hRm hm hw
      obtain ⟨u, i, a1, a2, a3, a4⟩ := J0.s8 m w hRm hm hw
      refine ⟨u, i, ?_, a2, a3, a4⟩
      dsimp only
      rw [Function.update_of_ne]
      · exact a1
      · rintro rfl
        rw [hc] at a1
        cases a1
        cases hf
  unfold Inherit.expire
  simp only
  by_cases hi : c.inherited = true
  · rw [if_pos hi]
    rcases hm : s.holder c.mutex with _ | h
    · exact ⟨_, rfl, quiet (by rw [hm]; intro t ht; cases ht)⟩
    · simp only
      have hh1 := J0.held1 _ h hm
      have hhc : h ≠ s.k.current := by rintro rfl; omega
      rw [if_neg (by simp [hh1, hhc])]
      obtain ⟨cl, I⟩ := J0.reach.inv
      have hbl := base_le J0.reach h
      have hhi : highest s.k.prio (s.waiting c.mutex) ≤ s.k.prio h := by
        rcases hw : s.waiting c.mutex with _ | ⟨x, l⟩
        · exact Nat.zero_le _
        · exact (J0.p2 _ h x hR hm (by rw [hw]; simp)).1
      have hgu : isReady s.k h = true → s.k.prio h = max (s.k.base h) (highest s.k.prio (s.waiting c.mutex)) ∨
          1 < s.k.heap.count (.ready (s.k.prio h)) := by
        intro hrd
        by_cases he : s.k.prio h = max (s.k.base h) (highest s.k.prio (s.waiting c.mutex))
        · exact .inl he
        · right
          obtain ⟨l, f, a1, a2, a3⟩ := J0.p3 _ h hm (by omega)
          rcases a3 with a3 | ⟨_, p, a3⟩
          · exact absurd (le_highest (J0.desc _) a3) (by omega)
          · have := (Ready.C106_right_list J0.reach a3).1
            subst this
            rw [a2] at a3
            refine Ready.two_in_list I.core.world (x := h) (y := l) ?_ (Ready.isReady_spec hrd) a3
            rintro rfl
            have := J0.call0 _ _ a1
            omega
      obtain ⟨k1, c1, e1, I1, _⟩ := Ready.timeout_spec I.toInv0 hhc hhi hgu
      obtain ⟨S1, p1, q1⟩ := Ready.timeout_all e1
      have st1 : Ready.step s.k (.timeout h (highest s.k.prio (s.waiting c.mutex))) = .ok k1 := by
        simp only [Ready.step]
        rw [if_pos ⟨hhc, hhi, hgu⟩, e1]
      have r1 : Ready.Reached k1 := J0.reach.step st1
      rw [e1]
      refine ⟨_, rfl, ?_⟩
      have hcp : ∀ x d, s.call x = some d → k1.prio x = s.k.prio x := by
        intro x d hx
        rw [p1, Function.update_of_ne]
        rintro rfl
        have := J0.call0 _ _ hx
        omega
      have hwp : ∀ m x, x ∈ s.waiting m → k1.prio x = s.k.prio x := by
        intro m x hx
        obtain ⟨i, hi⟩ := J0.w1 m x hx
        exact hcp x _ hi
      have hph : k1.prio h = max (s.k.base h) (highest s.k.prio (s.waiting c.mutex)) := by rw [p1, Function.update_self]
      refine ⟨r1, ?_, ?_, J0.held1, fun a t ht => S1.alive t (J0.exist a t ht), J0.inj, J0.holds,
        fun t d h => J0.call0 t d (hcc t d h).2, fun t d h => S1.alive t (J0.callE t d (hcc t d h).2),
        fun t d h => J0.failL t d (hcc t d h).2, ?_, ?_, J0.nodup, ?_, ?_, ?_, ?_, ?_, ?_⟩
      · intro hRa
        exact (J0.ord hRa).step (by rintro ⟨_, t, ht, _⟩; cases ht) st1
      · dsimp only; rw [S1.current]; exact S1.exist _ J0.cur
      · intro m t ht
        dsimp only
        rw [Function.update_of_ne (hcw m t ht)]; exact J0.w1 m t ht
      · intro m t ht
        refine blocked_congr (J0.blk m t ht) (S1.cont t (blocked_not_canRun (J0.blk m t ht))) ?_
        rw [S1.pending]; exact blocked_not_pending (J0.blk m t ht)
      · intro m
        exact desc_congr (J0.desc m) (fun x hx => hwp m x hx)
      · intro m t hl ht
        dsimp only
        rw [S1.cont t (blocked_not_canRun (J0.blk m t ht))]; exact J0.forever m t hl ht
      · intro t ht
        dsimp only at ht ⊢
        rw [p1, S1.base, Function.update_of_ne (by rintro rfl; omega)]; exact J0.p1 t ht
      · intro m t w hRm ht hw
        dsimp only at ht ⊢
        rw [Function.update_of_ne (hcw m w hw), hwp m w hw, S1.base]
        refine ⟨?_, (J0.p2 m t w hRm ht hw).2⟩
        by_cases hth : t = h
        · subst hth
          have : m = c.mutex := J0.inj _ _ _ ht hm
          subst this
          have := le_highest (J0.desc _) hw
          rw [hph]; omega
        · rw [p1, Function.update_of_ne hth]; exact (J0.p2 m t w hRm ht hw).1
      · intro m t ht hne
        dsimp only at ht hne ⊢
        rw [S1.base] at hne
        by_cases hth : t = h
        · subst hth
          have : m = c.mutex := J0.inj _ _ _ ht hm
          subst this
          rw [hph] at hne ⊢
          have hlt : s.k.base t < highest s.k.prio (s.waiting c.mutex) := by omega
          rcases hw : s.waiting c.mutex with _ | ⟨x, l⟩
          · rw [hw] at hlt; simp [highest] at hlt
          · have hx : x ∈ s.waiting c.mutex := by rw [hw]; simp
            have hhx : highest s.k.prio (s.waiting c.mutex) = s.k.prio x := by rw [hw]; rfl
            rw [hhx] at hlt
            obtain ⟨_, a2⟩ := J0.p2 _ t x hR hm hx
            rcases a2 with a2 | a2
            · refine ⟨x, false, by rw [Function.update_of_ne (hcw _ x hx)]; exact a2, ?_, .inl (by simp)⟩
              rw [hwp _ x hx]; simp only [highest]; omega
            · omega
        · have htp : k1.prio t = s.k.prio t := by rw [p1, Function.update_of_ne hth]
          rw [htp] at hne
          obtain ⟨u, f, a1, a2, a3⟩ := J0.p3 m t ht hne
          have huc : u ≠ s.k.current := by
            rintro rfl
            rw [hc] at a1
            cases a1
            rw [hm] at ht
            cases ht
            exact hth rfl
          refine ⟨u, f, by rw [Function.update_of_ne huc]; exact a1, by rw [hcp u _ a1, htp]; exact a2, ?_⟩
          rcases a3 with a3 | ⟨a3, a4⟩
          · exact .inl a3
          · exact .inr ⟨a3, (S1.run u).mpr a4⟩
      · intro m w hRm ht hw
        dsimp only at ht ⊢
        obtain ⟨u, i, a1, a2, a3, a4⟩ := J0.s8 m w hRm ht hw
        have huc : u ≠ s.k.current := by
          rintro rfl
          rw [hc] at a1
          cases a1
          cases hf
        refine ⟨u, i, by rw [Function.update_of_ne huc]; exact a1, (S1.run u).mpr a2,
          by rw [hwp _ _ hw, hcp u _ a1]; exact a3, ?_⟩
        rw [q1, S1.susp, hcp u _ a1, S1.current, p1, Function.update_of_ne hhc.symm]
        exact a4
  · rw [if_neg hi]
    exact ⟨_, rfl, quiet (fun _ _ => by simpa using hi)⟩

/-- A mutex for which all wait without limit is never given back like that. -/
theorem J.stale (J0 : J limited R s) {m : Nat} (h : Stale s m) : limited m = true := by
  obtain ⟨h1, h2, t, h3, h4⟩ := h
  obtain ⟨l, f, a1, a2, a3⟩ := J0.p3 m _ h1 h2
  rcases a3 with a3 | ⟨a3, _⟩
  · exfalso
    have := le_highest (J0.desc m) a3
    have hb := base_le J0.reach s.k.current
    rcases hw : s.waiting m with _ | ⟨x, l⟩
    · rw [hw] at h3; cases h3
    · rw [hw] at h3 this
      cases h3
      simp only [highest] at this
      omega
  · exact a3

/-- Giving a mutex back. -/
theorem J.give (J0 : J limited R s) {m : Nat} (hr : runs s.k = true) (hm : s.holder m = some s.k.current)
    (hst : Stale s m → ∀ m', R m' → m' = m) : ∃ s', give s m = .ok s' ∧ J limited R s' := by
  obtain ⟨hready, hpend, hsusp⟩ := runs_spec hr
  have hrun : CanRun s.k s.k.current := (canRun_ready J0.reach).mpr hready
  have hh1 := J0.held1 _ _ hm
  have hbl := base_le J0.reach s.k.current
  obtain ⟨cl, I⟩ := J0.reach.inv
  have hhd : ∀ t ∈ (s.waiting m).head?, t ∈ s.waiting m := fun t ht => List.mem_of_mem_head? ht
  have hhb : ∀ t ∈ (s.waiting m).head?, isBlocked s.k t = true := fun t ht => J0.blk m t (hhd t ht)
  obtain ⟨k1, c1, st1, I1, _⟩ := Ready.step_spec (j := False) I (.give (s.waiting m).head?) False.elim
  have e1 : Ready.give s.k (s.waiting m).head? = .ok k1 := by
    simp only [Ready.step] at st1
    rw [if_pos ⟨hready, hhb⟩] at st1
    exact st1
  have r1 : Ready.Reached k1 := J0.reach.step st1
  obtain ⟨g1, g2, g3, g4, g5, g6, g7, g8, g9, g10, g11⟩ :=
    Ready.give_all hrun hsusp (fun t ht => blocked_not_canRun (hhb t ht)) e1
  unfold Inherit.give
  rw [if_neg (by omega), e1]
  refine ⟨_, rfl, ?_⟩
  have hcc : ∀ x d, s.call x = some d → x ≠ s.k.current := by
    rintro x d hx rfl
    have := J0.call0 _ _ hx
    omega
  have hcp : ∀ x d, s.call x = some d → k1.prio x = s.k.prio x := by
    intro x d hx
    rw [g1, Function.update_of_ne (hcc x d hx)]
  have hwp : ∀ m x, x ∈ s.waiting m → k1.prio x = s.k.prio x := by
    intro m x hx
    obtain ⟨i, hi⟩ := J0.w1 m x hx
    exact hcp x _ hi
  -- who still waits
  have hwm : ∀ m' x, x ∈ Function.update s.waiting m (s.waiting m).tail m' → x ∈ s.waiting m' ∧ x ∉ (s.waiting m).head? := by
    intro m' x hx
    by_cases hmm : m' = m
    · subst hmm
      rw [Function.update_self] at hx
      refine ⟨List.mem_of_mem_tail hx, ?_⟩
      intro hh
      have hn := J0.nodup m'
      rcases hw : s.waiting m' with _ | ⟨y, l⟩
      · rw [hw] at hx; cases hx
      · rw [hw] at hx hh hn
        cases hh
        exact (List.nodup_cons.mp hn).1 hx
    · rw [Function.update_of_ne hmm] at hx
      refine ⟨hx, ?_⟩
      intro hh
      obtain ⟨i, hi⟩ := J0.w1 m' x hx
      obtain ⟨j, hj⟩ := J0.w1 m x (hhd x hh)
      rw [hi] at hj
      cases hj
      exact hmm rfl
  have hho : ∀ m' t, Function.update s.holder m none m' = some t → m' ≠ m ∧ t ≠ s.k.current ∧ s.holder m' = some t := by
    intro m' t h
    have hmm : m' ≠ m := by rintro rfl; rw [Function.update_self] at h; cases h
    rw [Function.update_of_ne hmm] at h
    exact ⟨hmm, by rintro rfl; exact hmm (J0.inj _ _ _ h hm), h⟩
  have hrn : ∀ x, CanRun s.k x → CanRun k1 x := by
    intro x hx
    by_cases hh : x ∈ (s.waiting m).head?
    · exact g6 x hh
    · exact (g7 x hh).mpr hx
  have hex : ∀ x, Ready.Alive s.k x → Ready.Alive k1 x := by
    intro x hx
    by_cases hc : CanRun k1 x
    · exact hc.alive
    · have hh : x ∉ (s.waiting m).head? := fun hh => hc (g6 x hh)
      unfold Ready.Alive
      rw [g8 x hh (fun h => hc (hrn x h))]; exact hx
  have hcont : ∀ m' x, x ∈ Function.update s.waiting m (s.waiting m).tail m' →
      k1.heap.container x = s.k.heap.container x := by
    intro m' x hx
    obtain ⟨h1, h2⟩ := hwm m' x hx
    exact g8 x h2 (blocked_not_canRun (J0.blk m' x h1))
  have hheld : ∀ t, t ≠ s.k.current → Function.update s.held s.k.current (s.held s.k.current - 1) t = s.held t :=
    fun t ht => Function.update_of_ne ht ..
  refine ⟨r1, ?_, ?_, ?_, ?_, ?_, ?_, ?_, fun t d h => hex t (J0.callE t d h), J0.failL, ?_, ?_, ?_, ?_, ?_, ?_, ?_, ?_, ?_⟩
  · intro hRa
    refine (J0.ord hRa).step ?_ st1
    rintro ⟨hne, t, ht, hle⟩
    have hS : Stale s m := ⟨hm, hne, t, by injection ht, hle⟩
    have h0 := hst hS (m + 1) (hRa _)
    omega
  · dsimp only; rw [g3]; exact (hex _ hrun.alive).1
  · intro m' t h
    obtain ⟨_, ht, h⟩ := hho m' t h
    dsimp only
    rw [hheld t ht]; exact J0.held1 m' t h
  · intro m' t h
    exact hex t (J0.exist m' t (hho m' t h).2.2)
  · intro a b t ha hb
    exact J0.inj a b t (hho a t ha).2.2 (hho b t hb).2.2
  · intro t ht
    dsimp only at ht ⊢
    by_cases htc : t = s.k.current
    · subst htc; rw [Function.update_self, hh1] at ht; exact absurd rfl ht
    · rw [hheld t htc] at ht
      obtain ⟨m', h⟩ := J0.holds t ht
      refine ⟨m', ?_⟩
      rw [Function.update_of_ne]
      · exact h
      · rintro rfl; rw [hm] at h; cases h; exact htc rfl
  · intro t d h
    dsimp only
    rw [hheld t (hcc t d h)]; exact J0.call0 t d h
  · intro m' t ht
    exact J0.w1 m' t (hwm m' t ht).1
  · intro m' t ht
    refine blocked_congr (J0.blk m' t (hwm m' t ht).1) (hcont m' t ht) ?_
    rw [g5]; exact blocked_not_pending (J0.blk m' t (hwm m' t ht).1)
  · intro m'
    dsimp only
    by_cases hmm : m' = m
    · subst hmm; rw [Function.update_self]; exact (J0.nodup m').tail
    · rw [Function.update_of_ne hmm]; exact J0.nodup m'
  · intro m'
    refine desc_congr (p := s.k.prio) ?_ (fun x hx => hwp m' x (hwm m' x hx).1)
    dsimp only
    by_cases hmm : m' = m
    · subst hmm; rw [Function.update_self]; exact (J0.desc m').tail
    · rw [Function.update_of_ne hmm]; exact J0.desc m'
  · intro m' t hl ht
    dsimp only
    rw [hcont m' t ht]; exact J0.forever m' t hl (hwm m' t ht).1
  · intro t ht
    dsimp only at ht ⊢
    rw [g1, g2]
    by_cases htc : t = s.k.current
    · subst htc; rw [Function.update_self]
    · rw [hheld t htc] at ht
      rw [Function.update_of_ne htc]; exact J0.p1 t ht
  · intro m' t w hR h hw
    obtain ⟨_, ht, h⟩ := hho m' t h
    obtain ⟨hw, _⟩ := hwm m' w hw
    dsimp only
    rw [hwp m' w hw, g2, g1, Function.update_of_ne ht]
    exact J0.p2 m' t w hR h hw
  · intro m' t h hne
    obtain ⟨hmm, ht, h⟩ := hho m' t h
    dsimp only at hne ⊢
    rw [g2, g1, Function.update_of_ne ht] at hne
    obtain ⟨u, f, a1, a2, a3⟩ := J0.p3 m' t h hne
    refine ⟨u, f, a1, by rw [hcp u _ a1, g1, Function.update_of_ne ht]; exact a2, ?_⟩
    rcases a3 with a3 | ⟨a3, a4⟩
    · left; rw [Function.update_of_ne hmm]; exact a3
    · exact .inr ⟨a3, hrn u a4⟩
  · intro m' w hR h hw
    obtain ⟨hw1, hw2⟩ := hwm m' w hw
    dsimp only at h ⊢
    rw [hwp m' w hw1, g4, g3]
    have hpc : k1.prio s.k.current = s.k.base s.k.current := by rw [g1, Function.update_self]
    by_cases hmm : m' = m
    · subst hmm
      -- the task that is woken
      rcases hwl : s.waiting m' with _ | ⟨u, l⟩
      · rw [hwl] at hw1; cases hw1
      · have hu : u ∈ (s.waiting m').head? := by rw [hwl]; rfl
        obtain ⟨i, hi⟩ := J0.w1 m' u (hhd u hu)
        refine ⟨u, i, hi, g6 u hu, ?_, ?_⟩
        · have := le_highest (J0.desc m') hw1
          rw [hwl] at this
          rw [hwp m' u (hhd u hu)]
          exact this
        · rw [hpc, hwp m' u (hhd u hu)]
          by_cases hlt : s.k.base s.k.current < s.k.prio u
          · exact .inl ⟨g10 u hu hlt, rfl⟩
          · exact .inr (by omega)
    · rw [Function.update_of_ne hmm] at h
      obtain ⟨u, i, a1, a2, a3, a4⟩ := J0.s8 m' w hR h hw1
      refine ⟨u, i, a1, hrn u a2, by rw [hcp u _ a1]; exact a3, ?_⟩
      rw [hcp u _ a1, hpc]
      rcases a4 with ⟨a4, _⟩ | a4
      · rw [hpend] at a4; cases a4
      · by_cases hne : s.k.prio s.k.current = s.k.base s.k.current
        · exact .inr (by omega)
        · left
          refine ⟨?_, rfl⟩
          rcases hhh : (s.waiting m).head? with _ | t
          · exact g11 hhh hne
          · apply g10 t (by rw [hhh]; rfl)
            by_contra hle
            exact hmm (hst ⟨hm, hne, t, hhh, by omega⟩ m' hR)

/-- Every event. -/
theorem J.step (J0 : J limited R s) (hlr : ∀ m, limited m = true → R m) (e : Ev)
    (hst : ∀ m, e = .give m → Stale s m → ∀ m', R m' → m' = m) :
    ∃ s', step limited s e = .ok s' ∧ J limited R s' := by
  cases e with
  | take m w =>
    simp only [Inherit.step]
    by_cases hg : runs s.k ∧ s.k.current ≠ Ready.idle ∧ s.held s.k.current = 0 ∧
        (∀ c ∈ s.call s.k.current, c.mutex = m ∧ c.failed = false) ∧
        (limited m ∨ w = .forever ∨ s.holder m = none)
    · rw [if_pos hg]
      obtain ⟨h1, h2, h3, h4, h5⟩ := hg
      rcases hm : s.holder m with _ | h
      · unfold take
        simp only [hm]
        exact ⟨_, rfl, J0.takeFree h1 h3 h4 hm⟩
      · exact J0.takeWait h1 h2 h3 h4 hm (by rw [hm] at h5; simpa using h5)
    · rw [if_neg hg]; exact ⟨s, rfl, J0⟩
  | check =>
    simp only [Inherit.step]
    rcases hc : s.call s.k.current with _ | c
    · exact ⟨s, rfl, J0⟩
    · simp only
      split_ifs with hg
      · exact ⟨_, rfl, J0.check hc hg.1 hg.2.1 hg.2.2⟩
      · exact ⟨s, rfl, J0⟩
  | expire =>
    simp only [Inherit.step]
    rcases hc : s.call s.k.current with _ | c
    · exact ⟨s, rfl, J0⟩
    · simp only
      split_ifs with hg
      · exact J0.expire hlr hc hg.1 hg.2
      · exact ⟨s, rfl, J0⟩
  | give m =>
    simp only [Inherit.step]
    split_ifs with hg
    · exact J0.give hg.1 hg.2 (hst m rfl)
    · exact ⟨s, rfl, J0⟩
  | other e =>
    simp only [Inherit.step]
    split_ifs with hg
    · exact J0.sched hg
    · exact ⟨s, rfl, J0⟩

end Verif.Inherit
