import Verif.Model.QueueWait
import Mathlib.Data.Finset.Card
import Mathlib.Data.List.Perm.Basic
import Mathlib.Tactic.SplitIfs
import Mathlib.Tactic.ByContra

set_option autoImplicit false

/-!
# Invariant of waiting on a queue
-/

namespace Verif.QueueWait

variable {n : Nat}

/-- The task has put itself on the list of waiting tasks and has not yet gone on at the top of
the loop. -/
def waitPc (d : Dir) : Pc → Bool
  | .unlockTx d' .placed => d == d'
  | .unlockRx d' .placed => d == d'
  | .resume d' .placed => d == d'
  | .blocked d' => d == d'
  | _ => false

/-- How many of these have left the list. -/
def woken (d : Dir) (pc : Fin n → Pc) (l : List (Fin n)) : Nat :=
  (Finset.univ.filter fun t => waitPc d (pc t) = true ∧ t ∉ l).card

theorem woken_mono {d : Dir} {pc pc' : Fin n → Pc} {l l' : List (Fin n)}
    (h : ∀ t, waitPc d (pc t) = true ∧ t ∉ l → waitPc d (pc' t) = true ∧ t ∉ l') :
    woken d pc l ≤ woken d pc' l' := by
  apply Finset.card_le_card
  intro t ht
  simp only [Finset.mem_filter, Finset.mem_univ, true_and] at ht ⊢
  exact h t ht

theorem woken_except {d : Dir} {pc pc' : Fin n → Pc} {l l' : List (Fin n)} (a : Fin n)
    (h : ∀ t, t ≠ a → waitPc d (pc t) = true ∧ t ∉ l → waitPc d (pc' t) = true ∧ t ∉ l') :
    woken d pc l ≤ woken d pc' l' + 1 := by
  unfold woken
  refine (Finset.card_le_card (t := insert a (Finset.univ.filter fun t => waitPc d (pc' t) = true ∧ t ∉ l')) ?_).trans
    (Finset.card_insert_le _ _)
  intro t ht
  simp only [Finset.mem_filter, Finset.mem_univ, true_and, Finset.mem_insert] at ht ⊢
  by_cases hta : t = a
  · exact .inl hta
  · exact .inr (h t hta ht)

theorem woken_more {d : Dir} {pc : Fin n → Pc} {x : Fin n} {xs : List (Fin n)}
    (hn : (x :: xs).Nodup) (hx : waitPc d (pc x) = true) :
    woken d pc (x :: xs) + 1 = woken d pc xs := by
  have hx' : x ∉ xs := (List.nodup_cons.mp hn).1
  unfold woken
  have : (Finset.univ.filter fun t => waitPc d (pc t) = true ∧ t ∉ xs)
      = insert x (Finset.univ.filter fun t => waitPc d (pc t) = true ∧ t ∉ x :: xs) := by
    ext t
    simp only [Finset.mem_filter, Finset.mem_univ, true_and, Finset.mem_insert, List.mem_cons, not_or]
    constructor
    · rintro ⟨h1, h2⟩
      by_cases htx : t = x
      · exact .inl htx
      · exact .inr ⟨h1, htx, h2⟩
    · rintro (rfl | ⟨h1, _, h2⟩)
      · exact ⟨hx, hx'⟩
      · exact ⟨h1, h2⟩
  rw [this, Finset.card_insert_of_notMem]
  simp

/-- What holds of one list of waiting tasks: `avail` is what these tasks wait for, `lock` the
count of what interrupts added to it while the queue was locked. -/
structure Side (d : Dir) (pc : Fin n → Pc) (avail : Nat) (lock : Int) (l : List (Fin n)) : Prop where
  nodup : l.Nodup
  mem : ∀ t ∈ l, waitPc d (pc t) = true
  covered : l ≠ [] → avail ≤ woken d pc l + lock.toNat
  placing : ∀ t, pc t = .place d → avail ≤ lock.toNat

variable {d : Dir} {pc : Fin n → Pc} {avail avail' : Nat} {lock lock' : Int} {l : List (Fin n)}

theorem Side.less (S : Side d pc avail lock l) (h : avail' ≤ avail) : Side d pc avail' lock l :=
  ⟨S.nodup, S.mem, fun hl => h.trans (S.covered hl), fun t ht => h.trans (S.placing t ht)⟩

theorem Side.lockLe (S : Side d pc avail lock l) (h : lock.toNat ≤ lock'.toNat) :
    Side d pc avail lock' l :=
  ⟨S.nodup, S.mem, fun hl => (S.covered hl).trans (by omega),
   fun t ht => (S.placing t ht).trans h⟩

/-- A task moves without leaving the waiting part, and not to the placing step. -/
theorem Side.move (S : Side d pc avail lock l) {t : Fin n} {p : Pc}
    (h : waitPc d (pc t) = true → waitPc d p = true) (hp : p = .place d → avail ≤ lock.toNat) :
    Side d (Function.update pc t p) avail lock l := by
  have key : ∀ x, waitPc d (pc x) = true → waitPc d (Function.update pc t p x) = true := by
    intro x hx
    by_cases hxt : x = t
    · subst hxt; simpa using h hx
    · rwa [Function.update_of_ne hxt]
  refine ⟨S.nodup, fun x hx => key x (S.mem x hx), fun hl => (S.covered hl).trans ?_, ?_⟩
  · exact Nat.add_le_add_right (woken_mono fun x hx => ⟨key x hx.1, hx.2⟩) _
  · intro x hx
    by_cases hxt : x = t
    · subst hxt; exact hp (by simpa using hx)
    · rw [Function.update_of_ne hxt] at hx; exact S.placing x hx

/-- A task that has left the list goes on: it takes what it waited for, or there is nothing. -/
theorem Side.retry (S : Side d pc avail lock l) {t : Fin n} {p : Pc} (ht : t ∉ l)
    (hp : p ≠ .place d) (ha : avail' = 0 ∨ avail' + 1 ≤ avail) :
    Side d (Function.update pc t p) avail' lock l := by
  have key : ∀ x, x ≠ t → waitPc d (pc x) = true → waitPc d (Function.update pc t p x) = true := by
    intro x hxt hx
    rwa [Function.update_of_ne hxt]
  refine ⟨S.nodup, fun x hx => key x (fun h => ht (h ▸ hx)) (S.mem x hx), fun hl => ?_, ?_⟩
  · have h1 := S.covered hl
    have h2 : woken d pc l ≤ woken d (Function.update pc t p) l + 1 :=
      woken_except t fun x hx hw => ⟨key x hx hw.1, hw.2⟩
    omega
  · intro x hx
    by_cases hxt : x = t
    · subst hxt; exact absurd (by simpa using hx) hp
    · rw [Function.update_of_ne hxt] at hx
      have := S.placing x hx
      omega

/-- One more of what they wait for, and the first of them leaves the list. -/
theorem Side.wake (S : Side d pc avail lock l) (hp : ∀ t, pc t ≠ .place d) :
    Side d pc (avail + 1) lock (wake l) := by
  cases l with
  | nil => exact ⟨by simp [QueueWait.wake], by simp [QueueWait.wake], by simp [QueueWait.wake], fun t ht => absurd ht (hp t)⟩
  | cons x xs =>
      refine ⟨(List.nodup_cons.mp S.nodup).2, fun t ht => S.mem t (by simp [QueueWait.wake] at ht; simp [ht]), ?_, fun t ht => absurd ht (hp t)⟩
      intro _
      have h1 := S.covered (by simp)
      have h2 := woken_more S.nodup (S.mem x (by simp))
      simp only [QueueWait.wake]
      omega

theorem Side.wakeMany (hp : ∀ t, pc t ≠ .place d) : ∀ (k : Nat) {l : List (Fin n)},
    Side d pc avail k l → Side d pc avail (-1) (wakeMany k l)
  | 0, l, S => by simpa [QueueWait.wakeMany] using S.lockLe (lock' := -1) (by simp)
  | k + 1, [], S => ⟨by simp [QueueWait.wakeMany], by simp [QueueWait.wakeMany], by simp [QueueWait.wakeMany], fun t ht => absurd ht (hp t)⟩
  | k + 1, x :: xs, S => by
      rw [QueueWait.wakeMany]
      refine Side.wakeMany hp k ⟨(List.nodup_cons.mp S.nodup).2, fun t ht => S.mem t (by simp [ht]), ?_, fun t ht => absurd ht (hp t)⟩
      intro _
      have h1 := S.covered (by simp)
      have h2 := woken_more S.nodup (S.mem x (by simp))
      omega

/-- One more of what they wait for while the queue is locked. -/
theorem Side.count (S : Side d pc avail lock l) (h0 : 0 ≤ lock) :
    Side d pc (avail + 1) (lock + 1) l :=
  ⟨S.nodup, S.mem, fun hl => by have := S.covered hl; omega,
   fun t ht => by have := S.placing t ht; omega⟩

theorem mem_insertWait {prio : Fin n → Nat} {t x : Fin n} : ∀ {l : List (Fin n)},
    x ∈ insertWait prio t l ↔ x = t ∨ x ∈ l
  | [] => by simp [insertWait]
  | y :: ys => by
      simp only [insertWait]
      split_ifs
      · simp
      · simp only [List.mem_cons, mem_insertWait (l := ys)]; grind

theorem nodup_insertWait {prio : Fin n → Nat} {t : Fin n} : ∀ {l : List (Fin n)},
    l.Nodup → t ∉ l → (insertWait prio t l).Nodup
  | [], _, _ => by simp [insertWait]
  | y :: ys, hn, ht => by
      simp only [insertWait]
      split_ifs
      · exact List.nodup_cons.mpr ⟨ht, hn⟩
      · have h := List.nodup_cons.mp hn
        refine List.nodup_cons.mpr ⟨?_, nodup_insertWait h.2 (fun hm => ht (by simp [hm]))⟩
        rw [mem_insertWait]
        rintro (rfl | hm)
        · exact ht (by simp)
        · exact h.1 hm

/-- A task puts itself on the list. -/
theorem Side.place (S : Side d pc avail lock l) {prio : Fin n → Nat} {t : Fin n} {p : Pc}
    (ht : pc t = .place d) (hp : waitPc d p = true) :
    Side d (Function.update pc t p) avail lock (insertWait prio t l) := by
  have hl : t ∉ l := fun hm => by
    have := S.mem t hm
    rw [ht] at this; simp [waitPc] at this
  have hpp : p ≠ .place d := by rintro rfl; simp [waitPc] at hp
  refine ⟨nodup_insertWait S.nodup hl, ?_, fun _ => ?_, ?_⟩
  · intro x hx
    by_cases hxt : x = t
    · subst hxt; simpa using hp
    · rw [Function.update_of_ne hxt]
      exact S.mem x ((mem_insertWait.mp hx).resolve_left hxt)
  · have := S.placing t ht
    omega
  · intro x hx
    by_cases hxt : x = t
    · subst hxt; exact absurd (by simpa using hx) hpp
    · rw [Function.update_of_ne hxt] at hx; exact S.placing x hx

/-- A task's time ends. -/
theorem Side.erase (S : Side d pc avail lock l) (t : Fin n) : Side d pc avail lock (l.erase t) := by
  refine ⟨S.nodup.erase t, fun x hx => S.mem x (List.mem_of_mem_erase hx), fun hl => ?_, S.placing⟩
  refine (S.covered (by rintro rfl; simp at hl)).trans ?_
  exact Nat.add_le_add_right (woken_mono fun x hx => ⟨hx.1, fun hm => hx.2 (List.mem_of_mem_erase hm)⟩) _

/-! ## The whole -/

/-- The task has suspended the scheduler. -/
def suspPc : Pc → Bool
  | .lock _ | .check _ | .place _ | .unlockTx _ _ | .unlockRx _ _ | .resume _ _ => true
  | _ => false

/-- The queue is locked against changes of the lists by senders / by receivers. -/
def txLockedPc : Pc → Bool
  | .check _ | .place _ | .unlockTx _ _ => true
  | _ => false

def rxLockedPc : Pc → Bool
  | .check _ | .place _ | .unlockTx _ _ | .unlockRx _ _ => true
  | _ => false

structure Inv (c : Cfg n) (s : St n) : Prop where
  cap : s.msgs ≤ c.len
  susp : ∀ t, suspPc (s.pc t) = true ↔ s.susp = some t
  txUn : (∀ t, txLockedPc (s.pc t) = false) → s.txLock = -1
  rxUn : (∀ t, rxLockedPc (s.pc t) = false) → s.rxLock = -1
  tx0 : ∀ t, txLockedPc (s.pc t) = true → 0 ≤ s.txLock
  rx0 : ∀ t, rxLockedPc (s.pc t) = true → 0 ≤ s.rxLock
  txLe : s.txLock ≤ s.msgs
  rxLe : s.rxLock ≤ (c.len - s.msgs : Nat)
  txNo : c.isrSends = false → s.txLock ≤ 0
  rxNo : c.isrRecvs = false → s.rxLock ≤ 0
  R : Side .recv s.pc s.msgs s.txLock s.waitR
  S : Side .send s.pc (c.len - s.msgs) s.rxLock s.waitS

/-- The queues of the firmware on which a task may wait: short, and interrupts do not both send
and receive. -/
structure Cfg.Fine (c : Cfg n) : Prop where
  short : c.len ≤ 127
  oneWay : c.isrSends = false ∨ c.isrRecvs = false

theorem inv_create (c : Cfg n) {m : Nat} (hm : m ≤ c.len) : Inv c (create n m) := by
  have hS : ∀ (d : Dir) (a : Nat), Side d (fun _ : Fin n => Pc.idle) a (-1) [] := fun d a =>
    ⟨by simp, by simp, by simp, fun t ht => by cases ht⟩
  constructor <;> simp [create, suspPc, txLockedPc, rxLockedPc, hm, hS] <;> omega

theorem tx_un_of_none {c : Cfg n} {s : St n} (I : Inv c s) (h : s.susp = none) :
    s.txLock = -1 ∧ s.rxLock = -1 ∧ (∀ t d, s.pc t ≠ .place d) := by
  have h0 : ∀ t, suspPc (s.pc t) = false := fun t => by
    have := I.susp t
    rw [h] at this
    simpa using this
  refine ⟨I.txUn fun t => ?_, I.rxUn fun t => ?_, fun t d hd => ?_⟩
  · have := h0 t; cases hp : s.pc t <;> simp_all [suspPc, txLockedPc]
  · have := h0 t; cases hp : s.pc t <;> simp_all [suspPc, rxLockedPc]
  · have := h0 t; rw [hd] at this; simp [suspPc] at this

theorem other_not {c : Cfg n} {s : St n} (I : Inv c s) {t : Fin n} (h : s.susp = some t)
    {x : Fin n} (hx : x ≠ t) : suspPc (s.pc x) = false := by
  have := I.susp x
  rw [h] at this
  cases hp : suspPc (s.pc x) with
  | false => rfl
  | true => exact absurd (Option.some.inj (this.mp hp)).symm hx

theorem not_tx_of {p : Pc} (h : suspPc p = false) : txLockedPc p = false ∧ rxLockedPc p = false := by
  cases p <;> simp_all [suspPc, txLockedPc, rxLockedPc]

/-- Steps of a task while nobody has suspended the scheduler, that leave it not suspended. -/
theorem inv_free {c : Cfg n} {s s' : St n} (I : Inv c s) (h : s.susp = none) {t : Fin n} {p : Pc}
    (hp : suspPc p = false) (h1 : s'.pc = Function.update s.pc t p) (h2 : s'.susp = none)
    (h3 : s'.txLock = s.txLock) (h4 : s'.rxLock = s.rxLock) (hc : s'.msgs ≤ c.len)
    (hR : Side .recv s'.pc s'.msgs s'.txLock s'.waitR)
    (hS : Side .send s'.pc (c.len - s'.msgs) s'.rxLock s'.waitS) : Inv c s' := by
  obtain ⟨u1, u2, u3⟩ := tx_un_of_none I h
  have hs : ∀ x, suspPc (s'.pc x) = false := by
    intro x
    rw [h1]
    by_cases hx : x = t
    · subst hx; simpa using hp
    · rw [Function.update_of_ne hx]
      have := I.susp x
      rw [h] at this
      simpa using this
  refine ⟨hc, ?_, ?_, ?_, ?_, ?_, ?_, ?_, ?_, ?_, hR, hS⟩
  · intro x; rw [hs x, h2]; simp
  · intro _; rw [h3, u1]
  · intro _; rw [h4, u2]
  · intro x hx; rw [(not_tx_of (hs x)).1] at hx; cases hx
  · intro x hx; rw [(not_tx_of (hs x)).2] at hx; cases hx
  · rw [h3, u1]; omega
  · rw [h4, u2]; omega
  · intro _; rw [h3, u1]; decide
  · intro _; rw [h4, u2]; decide

/-- Moves of a task within the suspended section. -/
theorem inv_held {c : Cfg n} {s s' : St n} (I : Inv c s) {t : Fin n} (h : s.susp = some t) {p : Pc}
    (hp : suspPc p = true) (h1 : s'.pc = Function.update s.pc t p) (h2 : s'.susp = s.susp)
    (hm : s'.msgs = s.msgs)
    (htx : (txLockedPc p = true ∧ 0 ≤ s'.txLock ∧ (s'.txLock = s.txLock ∨ s'.txLock = 0)) ∨
      (txLockedPc p = false ∧ s'.txLock = -1))
    (hrx : (rxLockedPc p = true ∧ 0 ≤ s'.rxLock ∧ (s'.rxLock = s.rxLock ∨ s'.rxLock = 0)) ∨
      (rxLockedPc p = false ∧ s'.rxLock = -1))
    (hR : Side .recv s'.pc s'.msgs s'.txLock s'.waitR)
    (hS : Side .send s'.pc (c.len - s'.msgs) s'.rxLock s'.waitS) : Inv c s' := by
  have ht : s'.pc t = p := by rw [h1]; simp
  have ho : ∀ x, x ≠ t → suspPc (s'.pc x) = false := by
    intro x hx
    rw [h1, Function.update_of_ne hx]
    exact other_not I h hx
  have l1 := I.txLe
  have l2 := I.rxLe
  refine ⟨hm ▸ I.cap, ?_, ?_, ?_, ?_, ?_, ?_, ?_, ?_, ?_, hR, hS⟩
  · intro x
    rw [h2, h]
    by_cases hx : x = t
    · subst hx; rw [ht, hp]; simp
    · rw [ho x hx]; simp; exact fun he => hx he.symm
  · intro hall
    rcases htx with ⟨a, _⟩ | ⟨_, b⟩
    · have := hall t; rw [ht, a] at this; cases this
    · exact b
  · intro hall
    rcases hrx with ⟨a, _⟩ | ⟨_, b⟩
    · have := hall t; rw [ht, a] at this; cases this
    · exact b
  · intro x hx
    by_cases hxt : x = t
    · subst hxt
      rcases htx with ⟨_, a, _⟩ | ⟨a, _⟩
      · exact a
      · rw [ht, a] at hx; cases hx
    · rw [(not_tx_of (ho x hxt)).1] at hx; cases hx
  · intro x hx
    by_cases hxt : x = t
    · subst hxt
      rcases hrx with ⟨_, a, _⟩ | ⟨a, _⟩
      · exact a
      · rw [ht, a] at hx; cases hx
    · rw [(not_tx_of (ho x hxt)).2] at hx; cases hx
  · rw [hm]; rcases htx with ⟨_, _, a | a⟩ | ⟨_, a⟩ <;> omega
  · rw [hm]; rcases hrx with ⟨_, _, a | a⟩ | ⟨_, a⟩ <;> omega
  · intro hi; have := I.txNo hi; rcases htx with ⟨_, _, a | a⟩ | ⟨_, a⟩ <;> omega
  · intro hi; have := I.rxNo hi; rcases hrx with ⟨_, _, a | a⟩ | ⟨_, a⟩ <;> omega

end Verif.QueueWait
