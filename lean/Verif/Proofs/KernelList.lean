import Verif.Model.KernelList
import Mathlib.Data.List.Chain
import Mathlib.Data.List.Nodup
import Mathlib.Data.List.Dedup
import Mathlib.Tactic.SplitIfs
import Mathlib.Tactic.ByContra

set_option autoImplicit false

/-! # Rings of linked items -/

namespace Verif.KList

variable {L X : Type} [DecidableEq L] [DecidableEq X]

/-- `b` follows `a` in both directions. -/
def Link (h : Heap L X) (a b : Addr L X) : Prop := h.next a = b ∧ h.prev b = a

/-- The addresses `w` are linked in this order, and the last one to the first. -/
def Ring (h : Heap L X) (w : List (Addr L X)) : Prop :=
  w.Nodup ∧ w.IsChain (Link h) ∧ ∀ a ∈ w.getLast?, ∀ b ∈ w.head?, Link h a b

omit [DecidableEq L] [DecidableEq X] in
theorem Ring.rotate {h : Heap L X} {u v : List (Addr L X)} (r : Ring h (u ++ v)) :
    Ring h (v ++ u) := by
  obtain ⟨nd, ch, cl⟩ := r
  rw [List.isChain_append] at ch
  obtain ⟨cu, cv, cuv⟩ := ch
  refine ⟨by
    rw [List.nodup_append] at nd ⊢
    exact ⟨nd.2.1, nd.1, fun a ha b hb e => nd.2.2 b hb a ha e.symm⟩, ?_, ?_⟩
  · rw [List.isChain_append]
    refine ⟨cv, cu, ?_⟩
    intro a ha b hb
    apply cl
    · rw [List.getLast?_append]
      rcases hv : v.getLast? with _ | z
      · rw [hv] at ha; simp at ha
      · rw [hv] at ha; simpa using ha
    · rw [List.head?_append]
      rcases hu : u.head? with _ | z
      · rw [hu] at hb; simp at hb
      · rw [hu] at hb; simpa using hb
  · intro a ha b hb
    rw [List.getLast?_append] at ha
    rw [List.head?_append] at hb
    rcases hu : u.getLast? with _ | z
    · have : u = [] := List.getLast?_eq_none_iff.mp hu
      subst this
      simp only [List.nil_append] at *
      apply cl
      · simpa using ha
      · simpa using hb
    · rcases hv : v.head? with _ | y
      · have : v = [] := List.head?_eq_none_iff.mp hv
        subst this
        simp only [List.append_nil] at *
        apply cl
        · simpa using ha
        · simpa using hb
      · rw [hu] at ha; rw [hv] at hb
        simp only [Option.mem_def, Option.some_or, Option.some.injEq] at ha hb
        subst ha; subst hb
        exact cuv _ (by simp [hu]) _ (by simp [hv])

omit [DecidableEq L] [DecidableEq X] in
/-- A chain only depends on `next` of all but its last address and `prev` of all but its first. -/
theorem chain_frame {h h' : Heap L X} :
    ∀ {w : List (Addr L X)}, w.IsChain (Link h) →
      (∀ a ∈ w.dropLast, h'.next a = h.next a) → (∀ b ∈ w.tail, h'.prev b = h.prev b) →
      w.IsChain (Link h')
  | [], _, _, _ => List.isChain_nil
  | [_], _, _, _ => List.isChain_singleton _
  | a :: b :: w, c, hn, hp => by
    rw [List.isChain_cons_cons] at c ⊢
    refine ⟨⟨?_, ?_⟩, ?_⟩
    · rw [hn a (by simp)]; exact c.1.1
    · rw [hp b (by simp)]; exact c.1.2
    · refine chain_frame c.2 (fun x hx => hn x ?_) (fun x hx => hp x ?_)
      · rw [List.dropLast_cons_of_ne_nil (by simp)]
        exact List.mem_cons_of_mem _ hx
      · simp only [List.tail_cons] at hx ⊢
        exact List.mem_cons_of_mem _ hx

omit [DecidableEq L] [DecidableEq X] in
theorem Ring.frame {h h' : Heap L X} {w : List (Addr L X)} (r : Ring h w)
    (hn : ∀ a ∈ w, h'.next a = h.next a) (hp : ∀ a ∈ w, h'.prev a = h.prev a) : Ring h' w := by
  obtain ⟨nd, ch, cl⟩ := r
  refine ⟨nd, chain_frame ch (fun a ha => hn a ((List.dropLast_sublist _).subset ha))
    (fun a ha => hp a (List.mem_of_mem_tail ha)), fun a ha b hb => ?_⟩
  have c := cl a ha b hb
  exact ⟨by rw [hn a (List.mem_of_getLast? ha)]; exact c.1,
    by rw [hp b (List.mem_of_mem_head? hb)]; exact c.2⟩

omit [DecidableEq L] [DecidableEq X] in
theorem mem_dropLast_ne {α : Type} {w : List α} (nd : w.Nodup) {p a : α} (hp : p ∈ w.getLast?)
    (ha : a ∈ w.dropLast) : a ≠ p := by
  rintro rfl
  have e := List.dropLast_append_getLast? a hp
  rw [← e, List.nodup_append] at nd
  exact nd.2.2 a ha a (by simp) rfl

theorem mem_tail_ne {α : Type} {w : List α} (nd : w.Nodup) {q b : α} (hq : q ∈ w.head?)
    (hb : b ∈ w.tail) : b ≠ q := by
  rintro rfl
  cases w with
  | nil => simp at hq
  | cons x xs =>
    simp only [List.head?_cons, Option.mem_def, Option.some.injEq] at hq
    subst hq
    exact (List.nodup_cons.mp nd).1 hb

omit [DecidableEq L] [DecidableEq X] in
/-- A new address behind the last one of a ring. -/
theorem Ring.push {h h' : Heap L X} {w : List (Addr L X)} {p q n : Addr L X} (r : Ring h w)
    (hp : p ∈ w.getLast?) (hq : q ∈ w.head?) (hn : n ∉ w)
    (n1 : h'.next p = n) (n2 : h'.next n = q) (n3 : ∀ a, a ≠ p → a ≠ n → h'.next a = h.next a)
    (p1 : h'.prev q = n) (p2 : h'.prev n = p) (p3 : ∀ a, a ≠ q → a ≠ n → h'.prev a = h.prev a) :
    Ring h' (w ++ [n]) := by
  obtain ⟨nd, ch, cl⟩ := r
  refine ⟨by
    rw [List.nodup_append]
    exact ⟨nd, by simp, fun a ha b hb e => hn (by rw [← List.mem_singleton.mp hb, ← e]; exact ha)⟩,
    ?_, ?_⟩
  · rw [List.isChain_append]
    refine ⟨chain_frame ch (fun a ha => n3 a (mem_dropLast_ne nd hp ha) ?_)
      (fun b hb => p3 b (mem_tail_ne nd hq hb) ?_), List.isChain_singleton _, ?_⟩
    · rintro rfl; exact hn ((List.dropLast_sublist _).subset ha)
    · rintro rfl; exact hn (List.mem_of_mem_tail hb)
    · intro a ha b hb
      have e1 : a = p := by
        simp only [Option.mem_def] at ha hp
        rw [hp] at ha; exact (Option.some.inj ha).symm
      have e2 : b = n := by simpa using hb.symm
      subst e1; subst e2
      exact ⟨n1, p2⟩
  · intro a ha b hb
    have e1 : a = n := by simpa using ha.symm
    have e2 : b = q := by
      cases w with
      | nil => simp at hq
      | cons x xs =>
        simp only [List.cons_append, List.head?_cons, Option.mem_def, Option.some.injEq] at hb hq
        rw [← hb, hq]
    subst e1; subst e2
    exact ⟨n2, p1⟩

omit [DecidableEq L] [DecidableEq X] in
/-- The first address of a ring is taken out. -/
theorem Ring.pop {h h' : Heap L X} {x : Addr L X} {w : List (Addr L X)} {p q : Addr L X}
    (r : Ring h (x :: w)) (hp : p ∈ w.getLast?) (hq : q ∈ w.head?)
    (n1 : h'.next p = q) (n3 : ∀ a, a ≠ p → h'.next a = h.next a)
    (p1 : h'.prev q = p) (p3 : ∀ a, a ≠ q → h'.prev a = h.prev a) : Ring h' w := by
  obtain ⟨nd, ch, cl⟩ := r
  have nd' := (List.nodup_cons.mp nd).2
  refine ⟨nd', chain_frame ch.tail (fun a ha => n3 a (mem_dropLast_ne nd' hp ha))
    (fun b hb => p3 b (mem_tail_ne nd' hq hb)), fun a ha b hb => ?_⟩
  have e1 : a = p := by
    simp only [Option.mem_def] at ha hp
    rw [hp] at ha; exact (Option.some.inj ha).symm
  have e2 : b = q := by
    simp only [Option.mem_def] at hb hq
    rw [hq] at hb; exact (Option.some.inj hb).symm
  subst e1; subst e2
  exact ⟨n1, p1⟩

end Verif.KList
