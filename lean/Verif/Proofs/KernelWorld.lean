import Verif.Proofs.KernelList
import Verif.Spec.KernelList
import Mathlib.Data.List.Basic

set_option autoImplicit false
set_option linter.unusedSectionVars false

/-! # Memory that holds a sequence for every list -/

namespace Verif.KList

variable {L X : Type} [DecidableEq L] [DecidableEq X]

/-- The ring of a list: its marker, then its items. -/
def word (l : L) (xs : List X) : List (Addr L X) := .mark l :: xs.map .item

/-- The address of the reading position. -/
def cursor (l : L) (past : List X) : Addr L X :=
  match past.getLast? with
  | none => .mark l
  | some x => .item x

/-- The address of the first of `b`, or the marker. -/
def front (l : L) : List X → Addr L X
  | [] => .mark l
  | x :: _ => .item x

/-- Memory holds the sequence `z` as list `l`. -/
structure Rep (h : Heap L X) (l : L) (z : Z X) : Prop where
  ring : Ring h (word l z.all)
  count : h.count l = z.all.length
  mem : ∀ x, h.container x = some l ↔ x ∈ z.all
  index : h.index l = cursor l z.past
  top : h.value (.mark l) = maxDelay

/-- Memory holds a sequence for every list. -/
def World (h : Heap L X) (c : L → Z X) : Prop := ∀ l, Rep h l (c l)

theorem world_init (junk : X → Addr L X) (v : X → Nat) :
    World (init junk v : Heap L X) (fun _ => ⟨[], []⟩) := by
  intro l
  refine ⟨⟨by simp [word, Z.all], by simp [word, Z.all], ?_⟩, rfl, by simp [init, Z.all], rfl, rfl⟩
  intro a ha b hb
  simp only [word, Z.all, List.append_nil, List.map_nil, List.getLast?_singleton, Option.mem_def,
    Option.some.injEq, List.head?_cons] at ha hb
  subst ha; subst hb
  exact ⟨rfl, rfl⟩

theorem mem_word {l : L} {xs : List X} {x : X} : (.item x : Addr L X) ∈ word l xs ↔ x ∈ xs := by
  simp [word]

theorem mark_mem_word {l m : L} {xs : List X} : (.mark m : Addr L X) ∈ word l xs ↔ m = l := by
  simp [word]

/-- Lists do not share addresses. -/
theorem World.disjoint {h : Heap L X} {c : L → Z X} (w : World h c) {l m : L} (hlm : l ≠ m)
    {a : Addr L X} (ha : a ∈ word l (c l).all) : a ∉ word m (c m).all := by
  intro hb
  cases a with
  | mark k => exact hlm ((mark_mem_word.mp ha).symm.trans (mark_mem_word.mp hb))
  | item x =>
    have h1 := ((w l).mem x).mpr (mem_word.mp ha)
    have h2 := ((w m).mem x).mpr (mem_word.mp hb)
    exact hlm (Option.some.inj (h1.symm.trans h2))

theorem cursor_append_singleton (l : L) (a : List X) (x : X) : cursor l (a ++ [x]) = .item x := by
  simp [cursor]

theorem last_word (l : L) (a : List X) : (word l a).getLast? = some (cursor l a) := by
  rcases List.eq_nil_or_concat a with rfl | ⟨a', x, rfl⟩
  · simp [word, cursor]
  · rw [List.concat_eq_append, cursor_append_singleton]
    simp only [word, List.map_append, List.map_cons, List.map_nil]
    rw [← List.cons_append, List.getLast?_append]; rfl

theorem word_append (l : L) (a b : List X) :
    word l (a ++ b) = word l a ++ b.map (.item : X → Addr L X) := by simp [word]

/-- A new item behind the position after `a`. -/
theorem splice {h h' : Heap L X} {c : L → Z X} (w : World h c) {l : L} {n : X} {a b : List X}
    {z : Z X} {q : Addr L X}
    (hc : h.container n = none) (hab : (c l).all = a ++ b) (hz : z.all = a ++ n :: b)
    (hi : h'.index l = cursor l z.past)
    (hq : q = h.next (cursor l a))
    (n1 : h'.next (cursor l a) = .item n) (n2 : h'.next (.item n) = q)
    (n3 : ∀ x, x ≠ cursor l a → x ≠ .item n → h'.next x = h.next x)
    (p1 : h'.prev q = .item n) (p2 : h'.prev (.item n) = cursor l a)
    (p3 : ∀ x, x ≠ q → x ≠ .item n → h'.prev x = h.prev x)
    (hv : h'.value = h.value) (hix : ∀ m, m ≠ l → h'.index m = h.index m)
    (hcon : h'.container = Function.update h.container n (some l))
    (hcnt : h'.count = Function.update h.count l (h.count l + 1)) :
    World h' (Function.update c l z) := by
  have notin : ∀ m, (.item n : Addr L X) ∉ word m (c m).all := by
    intro m hm
    have := ((w m).mem n).mpr (mem_word.mp hm)
    rw [hc] at this; exact absurd this (by simp)
  have rl := (w l).ring
  rw [hab, word_append] at rl
  have rr := rl.rotate
  have hlast : (b.map (.item : X → Addr L X) ++ word l a).getLast? = some (cursor l a) := by
    rw [List.getLast?_append, last_word]; rfl
  obtain ⟨q', hq'⟩ : ∃ q', (b.map (.item : X → Addr L X) ++ word l a).head? = some q' := by
    cases b <;> simp [word]
  have hqq : q' = q := by
    have := rr.2.2 _ (by rw [hlast]; rfl) q' (by rw [hq']; rfl)
    rw [hq]; exact this.1.symm
  have pw : ∀ x, x ∈ b.map (.item : X → Addr L X) ++ word l a ↔ x ∈ word l (c l).all := by
    intro x; rw [hab, word_append]; simp only [List.mem_append]; exact Or.comm
  have qin : q ∈ word l (c l).all := by
    rw [← hqq]; exact (pw _).mp (List.mem_of_mem_head? (by rw [hq']; rfl))
  have pin : cursor l a ∈ word l (c l).all :=
    (pw _).mp (List.mem_of_getLast? hlast)
  have rp := rr.push (h' := h') (p := cursor l a) (q := q) (n := .item n) (by rw [hlast]; rfl)
    (by rw [hq', hqq]; rfl) (by rw [pw]; exact notin l) n1 n2 n3 p1 p2 p3
  rw [List.append_assoc] at rp
  have rf := rp.rotate
  intro m
  by_cases hm : m = l
  · subst hm
    rw [Function.update_self]
    refine ⟨?_, ?_, ?_, hi, ?_⟩
    · rw [hz]
      have e : word m (a ++ n :: b) = word m a ++ [.item n] ++ b.map (.item : X → Addr L X) := by
        simp [word]
      rw [e]; exact rf
    · rw [hcnt, Function.update_self, (w m).count, hab, hz]; simp; omega
    · intro x
      rw [hcon, hz]
      by_cases hx : x = n
      · subst hx; simp
      · rw [Function.update_of_ne hx, (w m).mem, hab]
        simp [hx]
    · rw [hv]; exact (w m).top
  · rw [Function.update_of_ne hm]
    have dj : ∀ {x}, x ∈ word m (c m).all → x ≠ cursor l a ∧ x ≠ q ∧ x ≠ .item n := by
      intro x hx
      refine ⟨?_, ?_, ?_⟩
      · rintro rfl; exact w.disjoint hm hx pin
      · rintro rfl; exact w.disjoint hm hx qin
      · rintro rfl; exact notin m hx
    refine ⟨(w m).ring.frame (fun x hx => n3 x (dj hx).1 (dj hx).2.2)
        (fun x hx => p3 x (dj hx).2.1 (dj hx).2.2), ?_, ?_, ?_, ?_⟩
    · rw [hcnt, Function.update_of_ne hm]; exact (w m).count
    · intro x
      rw [hcon]
      by_cases hx : x = n
      · subst hx
        rw [Function.update_self]
        constructor
        · intro e; exact absurd (Option.some.inj e).symm hm
        · intro e; exact absurd (mem_word.mpr e) (notin m)
      · rw [Function.update_of_ne hx]; exact (w m).mem x
    · rw [hix m hm]; exact (w m).index
    · rw [hv]; exact (w m).top

theorem cursor_mem (l : L) (a b : List X) : cursor l a ∈ word l (a ++ b) := by
  rw [word_append]
  exact List.mem_append_left _ (List.mem_of_getLast? (last_word l a))

/-- The neighbours of a position. -/
theorem World.at {h : Heap L X} {c : L → Z X} (w : World h c) {l : L} {a b : List X}
    (hab : (c l).all = a ++ b) :
    h.next (cursor l a) = front l b ∧
    h.prev (front l b) = cursor l a := by
  have rl := (w l).ring
  rw [hab, word_append] at rl
  have rr := rl.rotate
  have hlast : (b.map (.item : X → Addr L X) ++ word l a).getLast? = some (cursor l a) := by
    rw [List.getLast?_append, last_word]; rfl
  have hh : (b.map (.item : X → Addr L X) ++ word l a).head? =
      some (front l b) := by
    cases b <;> simp [word, front]
  exact rr.2.2 _ (by rw [hlast]; rfl) _ (by rw [hh]; rfl)

theorem insertEnd_world {h : Heap L X} {c : L → Z X} (w : World h c) (l : L) {n : X}
    (hc : h.container n = none) :
    World (insertEnd h l n) (Function.update c l ((c l).insertEnd n)) := by
  have notin : ∀ m, (.item n : Addr L X) ∉ word m (c m).all := by
    intro m hm
    have := ((w m).mem n).mpr (mem_word.mp hm)
    rw [hc] at this; exact absurd this (by simp)
  -- the new item goes between `a` and `b`
  obtain ⟨a, b, hab, hz, hi, hb, hib⟩ : ∃ a b, (c l).all = a ++ b ∧
      ((c l).insertEnd n).all = a ++ n :: b ∧ h.index l = cursor l ((c l).insertEnd n).past ∧
      h.index l = front l b ∧
      h.index l ∈ word l (c l).all := by
    have hx := (w l).index
    rcases List.eq_nil_or_concat (c l).past with e | ⟨p, y, e⟩
    · refine ⟨(c l).ahead, [], ?_, ?_, ?_, ?_, ?_⟩
      · simp [Z.all, e]
      · simp [Z.insertEnd, e, Z.all]
      · rw [hx, e]; simp [Z.insertEnd, e]
      · rw [hx, e]; rfl
      · rw [hx, e]; simp [cursor, word]
    · refine ⟨p, y :: (c l).ahead, ?_, ?_, ?_, ?_, ?_⟩
      · simp [Z.all, e]
      · simp [Z.insertEnd, e, Z.all]
      · rw [hx, e]; simp [Z.insertEnd, e, cursor]
      · rw [hx, e]; simp [cursor, front]
      · rw [hx, e]; simp [cursor, word, Z.all, e]
  have nb := w.at hab
  rw [← hb] at nb
  have ne1 : (.item n : Addr L X) ≠ h.index l := fun e => notin l (e ▸ hib)
  have hp : h.prev (h.index l) = cursor l a := nb.2
  have ne2 : (.item n : Addr L X) ≠ cursor l a :=
    fun e => notin l (e ▸ (hab ▸ cursor_mem l a b))
  refine splice w hc hab hz hi nb.1.symm ?_ ?_ ?_ ?_ ?_ ?_ rfl (fun _ _ => rfl) rfl rfl
  · simp [insertEnd, Function.update_of_ne ne1.symm, hp]
  · simp [insertEnd, Function.update_of_ne ne1.symm, hp, Function.update_of_ne ne2]
  · intro x h1 h2
    simp [insertEnd, Function.update_of_ne ne1.symm, hp, Function.update_of_ne h1,
      Function.update_of_ne h2]
  · simp [insertEnd]
  · simp [insertEnd, Function.update_of_ne ne1, hp]
  · intro x h1 h2
    simp [insertEnd, Function.update_of_ne h1, Function.update_of_ne h2]

/-- Everything `put` steps over, and what is left. -/
theorem put_split (val : X → Nat) (n : X) : ∀ xs : List X, ∃ a b, xs = a ++ b ∧
    put val n xs = a ++ n :: b ∧ (∀ x ∈ a, val x ≤ val n) ∧ (∀ x ∈ b.head?, val n < val x)
  | [] => ⟨[], [], rfl, rfl, by simp, by simp⟩
  | x :: xs => by
    by_cases hx : val x ≤ val n
    · obtain ⟨a, b, e, e', h1, h2⟩ := put_split val n xs
      refine ⟨x :: a, b, by rw [e]; rfl, by rw [put, if_pos hx, e']; rfl, ?_, h2⟩
      intro y hy
      rcases List.mem_cons.mp hy with rfl | hy
      · exact hx
      · exact h1 y hy
    · exact ⟨[], x :: xs, rfl, by rw [put, if_neg hx]; rfl, by simp, by simp; omega⟩

/-- The loop of the sorted insertion ends behind the items that are not larger. -/
theorem seek_spec {h : Heap L X} {c : L → Z X} (w : World h c) {l : L} {v : Nat} (hv : v < maxDelay)
    {b : List X} (hb : ∀ x ∈ b.head?, v < h.value (.item x)) :
    ∀ (a p : List X), (c l).all = p ++ a ++ b → (∀ x ∈ a, h.value (.item x) ≤ v) →
      ∀ fuel, a.length < fuel → seek h v fuel (cursor l p) = some (cursor l (p ++ a))
  | [], p, hab, _, fuel + 1, _ => by
    rw [List.append_nil] at hab ⊢
    have nb := (w.at hab).1
    rw [seek, nb, if_neg]
    cases b with
    | nil => simp only [front, (w l).top]; omega
    | cons x b => simp only [front]; exact Nat.not_le.mpr (hb x (by simp))
  | x :: a, p, hab, ha, fuel + 1, hf => by
    have e : (c l).all = p ++ (x :: a ++ b) := by rw [hab]; simp
    have nb := (w.at e).1
    simp only [List.cons_append, front] at nb
    rw [seek, nb, if_pos (ha x (by simp))]
    have := seek_spec w hv hb a (p ++ [x]) (by rw [hab]; simp)
      (fun y hy => ha y (by simp [hy])) fuel (by simp at hf; omega)
    rw [cursor_append_singleton] at this
    rw [this]; simp

theorem insert_world {h : Heap L X} {c : L → Z X} (w : World h c) (l : L) {n : X}
    (hc : h.container n = none) (hb : ∀ x, h.value (.item x) ≤ maxDelay)
    {fuel : Nat} (hf : (c l).all.length < fuel) :
    ∃ h', insert fuel h l n = some h' ∧ h'.value = h.value ∧
      World h' (Function.update c l ((c l).insert (fun x => h.value (.item x)) n)) := by
  have notin : ∀ m, (.item n : Addr L X) ∉ word m (c m).all := by
    intro m hm
    have := ((w m).mem n).mpr (mem_word.mp hm)
    rw [hc] at this; exact absurd this (by simp)
  obtain ⟨a, b, hab, hz, hle, hgt, hi⟩ : ∃ a b, (c l).all = a ++ b ∧
      ((c l).insert (fun x => h.value (.item x)) n).all = a ++ n :: b ∧
      (∀ x ∈ a, h.value (.item x) ≤ h.value (.item n)) ∧
      (∀ x ∈ b.head?, h.value (.item n) < h.value (.item x)) ∧
      h.index l = cursor l ((c l).insert (fun x => h.value (.item x)) n).past := by
    have hx := (w l).index
    by_cases hp : ∀ x ∈ (c l).past, h.value (.item x) ≤ h.value (.item n)
    · obtain ⟨a, b, e, e', h1, h2⟩ := put_split (fun x => h.value (.item x)) n (c l).ahead
      refine ⟨(c l).past ++ a, b, ?_, ?_, ?_, h2, ?_⟩
      · rw [Z.all, e]; simp
      · rw [Z.insert, if_pos hp, Z.all, e']; simp
      · intro x hx
        rcases List.mem_append.mp hx with hx | hx
        · exact hp x hx
        · exact h1 x hx
      · rw [Z.insert, if_pos hp]; exact hx
    · obtain ⟨a, b, e, e', h1, h2⟩ := put_split (fun x => h.value (.item x)) n (c l).past
      have hbne : b ≠ [] := by
        rintro rfl
        apply hp
        rw [e]; simpa using h1
      refine ⟨a, b ++ (c l).ahead, ?_, ?_, h1, ?_, ?_⟩
      · rw [Z.all, e]; simp
      · rw [Z.insert, if_neg hp, Z.all, e']; simp
      · intro x hx
        apply h2
        cases b with
        | nil => exact absurd rfl hbne
        | cons y ys => simpa using hx
      · rw [Z.insert, if_neg hp, hx, e', e]
        rcases List.eq_nil_or_concat b with rfl | ⟨b', y, rfl⟩
        · exact absurd rfl hbne
        · have e1 := cursor_append_singleton l (a ++ b') y
          have e2 := cursor_append_singleton l (a ++ n :: b') y
          simp only [List.append_assoc, List.cons_append] at e1 e2
          simp only [List.concat_eq_append]
          rw [e1, e2]
  have hpos : (if h.value (.item n) = maxDelay then some (h.prev (.mark l))
      else seek h (h.value (.item n)) fuel (.mark l)) = some (cursor l a) := by
    by_cases hm : h.value (.item n) = maxDelay
    · rw [if_pos hm]
      have hbn : b = [] := by
        cases b with
        | nil => rfl
        | cons y ys =>
          have := hgt y (by simp)
          have := hb y
          omega
      have nb := (w.at hab).2
      rw [hbn, front] at nb
      rw [nb]
    · rw [if_neg hm]
      have := seek_spec w (l := l) (v := h.value (.item n)) (by have := hb n; omega) hgt a []
        (by rw [hab]; rfl) hle fuel (by rw [hab] at hf; simp at hf; omega)
      simpa [cursor] using this
  have nb := w.at hab
  have ne2 : (.item n : Addr L X) ≠ cursor l a :=
    fun e => notin l (e ▸ (hab ▸ cursor_mem l a b))
  have qin : h.next (cursor l a) ∈ word l (c l).all := by
    rw [nb.1, hab]; cases b <;> simp [word, front]
  have ne1 : (.item n : Addr L X) ≠ h.next (cursor l a) := fun e => notin l (e ▸ qin)
  unfold insert
  simp only
  rw [hpos]
  refine ⟨_, rfl, rfl, splice w hc hab hz hi rfl ?_ ?_ ?_ ?_ ?_ ?_ rfl (fun _ _ => rfl) rfl rfl⟩
  · simp
  · simp [Function.update_of_ne ne2]
  · intro x h1 h2
    simp [Function.update_of_ne h1, Function.update_of_ne h2]
  · simp [Function.update_of_ne ne1.symm]
  · simp
  · intro x h1 h2
    simp [Function.update_of_ne h1, Function.update_of_ne h2]

theorem nodup_all {h : Heap L X} {c : L → Z X} (w : World h c) (l : L) : (c l).all.Nodup := by
  have := (w l).ring.1
  rw [word, List.nodup_cons] at this
  exact List.Nodup.of_map _ this.2

theorem remove_world {h : Heap L X} {c : L → Z X} (w : World h c) {l : L} {x : X}
    (hc : h.container x = some l) :
    ∃ h', remove h x = .ok (((c l).erase x).all.length, h') ∧ h'.value = h.value ∧
      h'.container = Function.update h.container x none ∧
      World h' (Function.update c l ((c l).erase x)) := by
  have hx : x ∈ (c l).all := ((w l).mem x).mp hc
  have nd := nodup_all w l
  obtain ⟨a, b, hab, hz, hi⟩ : ∃ a b, (c l).all = a ++ x :: b ∧
      ((c l).erase x).all = a ++ b ∧
      cursor l ((c l).erase x).past =
        if h.index l = .item x then cursor l a else h.index l := by
    have hix := (w l).index
    rw [Z.all] at hx nd
    rcases List.mem_append.mp hx with hp | hp
    · obtain ⟨a, b, e⟩ := List.append_of_mem hp
      have hna : x ∉ a := by
        intro ha
        rw [e, List.append_assoc, List.nodup_append] at nd
        exact nd.2.2 x ha x (by simp) rfl
      have hnb : x ∉ (c l).ahead := by
        rw [List.nodup_append] at nd
        intro hb; exact nd.2.2 x hp x hb rfl
      refine ⟨a, b ++ (c l).ahead, ?_, ?_, ?_⟩
      · rw [Z.all, e]; simp
      · rw [Z.erase, Z.all, e, List.erase_append_right _ hna, List.erase_cons_head,
          List.erase_of_not_mem hnb]; simp
      · rw [Z.erase, hix, e]
        simp only
        rw [List.erase_append_right _ hna, List.erase_cons_head]
        rcases List.eq_nil_or_concat b with rfl | ⟨b', y, rfl⟩
        · simp [cursor_append_singleton]
        · have hyx : y ≠ x := by
            rintro rfl
            rw [e] at nd; simp [List.nodup_append] at nd
          have e1 : cursor l (a ++ x :: b'.concat y) = (.item y : Addr L X) := by
            have := cursor_append_singleton l (a ++ x :: b') y
            simpa using this
          have e2 : cursor l (a ++ b'.concat y) = (.item y : Addr L X) := by
            have := cursor_append_singleton l (a ++ b') y
            simpa using this
          rw [e1, e2, if_neg]
          simpa using hyx
    · obtain ⟨a, b, e⟩ := List.append_of_mem hp
      have hna : x ∉ (c l).past := by
        rw [List.nodup_append] at nd
        intro hb; exact nd.2.2 x hb x hp rfl
      have hna' : x ∉ a := by
        intro ha
        rw [e, ← List.append_assoc, List.nodup_append] at nd
        exact nd.2.2 x (by simp [ha]) x (by simp) rfl
      refine ⟨(c l).past ++ a, b, ?_, ?_, ?_⟩
      · rw [Z.all, e]; simp
      · rw [Z.erase, Z.all, List.erase_of_not_mem hna, e, List.erase_append_right _ hna',
          List.erase_cons_head]; simp
      · rw [Z.erase, hix]
        simp only
        rw [List.erase_of_not_mem hna, if_neg]
        rcases List.eq_nil_or_concat (c l).past with e' | ⟨p, y, e'⟩
        · rw [e']; simp [cursor]
        · rw [e']
          have e1 : cursor l (p.concat y) = (.item y : Addr L X) := by
            have := cursor_append_singleton l p y
            simpa using this
          rw [e1]
          rintro h
          injection h with h
          exact hna (by rw [e', ← h]; simp)
  -- the ring around `x`
  have rl := (w l).ring
  rw [hab, word_append] at rl
  have rr := rl.rotate
  have nbx := w.at hab
  simp only [front] at nbx
  have nbn := w.at (l := l) (a := a ++ [x]) (b := b) (by rw [hab]; simp)
  rw [cursor_append_singleton] at nbn
  have hpx : h.prev (.item x) = cursor l a := nbx.2
  have hlast : (b.map (.item : X → Addr L X) ++ word l a).getLast? = some (cursor l a) := by
    rw [List.getLast?_append, last_word]; rfl
  have hhead : (b.map (.item : X → Addr L X) ++ word l a).head? = some (h.next (.item x)) := by
    rw [nbn.1]; cases b <;> simp [word, front]
  have nx : (.item x : Addr L X) ∉ b.map (.item : X → Addr L X) ++ word l a := by
    have := rr.1
    simp only [List.map_cons, List.cons_append, List.nodup_cons] at this
    exact this.1
  have qne : h.next (.item x) ≠ .item x := by
    intro e
    have := List.mem_of_mem_head? (l := b.map (.item : X → Addr L X) ++ word l a)
      (by rw [hhead]; rfl)
    rw [e] at this; exact nx this
  have pne : cursor l a ≠ (.item x : Addr L X) := by
    intro e
    have := List.mem_of_getLast? hlast
    rw [e] at this; exact nx this
  have pw : ∀ y, y ∈ b.map (.item : X → Addr L X) ++ word l a → y ∈ word l (c l).all := by
    intro y hy; rw [hab, word_append]
    simp only [List.mem_append, List.map_cons, List.mem_cons] at hy ⊢
    tauto
  have pin := pw _ (List.mem_of_getLast? hlast)
  have qin := pw _ (List.mem_of_mem_head? (l := b.map (.item : X → Addr L X) ++ word l a)
      (by rw [hhead]; rfl))
  -- memory afterwards
  have hrem : ∃ h', remove h x = .ok (h.count l - 1, h') ∧
      h'.next = Function.update h.next (cursor l a) (h.next (.item x)) ∧
      h'.prev = Function.update h.prev (h.next (.item x)) (cursor l a) ∧
      h'.value = h.value ∧ h'.container = Function.update h.container x none ∧
      h'.index = Function.update h.index l (if h.index l = .item x then cursor l a else h.index l) ∧
      h'.count = Function.update h.count l (h.count l - 1) := by
    unfold remove
    rw [hc]
    simp only [hpx, Function.update_of_ne qne.symm]
    by_cases hi : h.index l = .item x
    · simp [hi]
    · simp [hi]
  obtain ⟨h', e0, e1, e2, e3, e4, e5, e6⟩ := hrem
  refine ⟨h', ?_, e3, e4, ?_⟩
  · rw [e0, (w l).count, hab, hz]; simp
  · intro m
    by_cases hm : m = l
    · subst hm
      rw [Function.update_self]
      refine ⟨?_, ?_, ?_, ?_, ?_⟩
      · rw [hz, word_append]
        apply Ring.rotate
        simp only [List.map_cons, List.cons_append] at rr
        refine rr.pop (p := cursor m a) (q := h.next (.item x)) (by rw [hlast]; rfl)
          (by rw [hhead]; rfl) ?_ ?_ ?_ ?_
        · rw [e1]; simp
        · intro y hy; rw [e1, Function.update_of_ne hy]
        · rw [e2]; simp
        · intro y hy; rw [e2, Function.update_of_ne hy]
      · rw [e6, Function.update_self, (w m).count, hab, hz]; simp
      · intro y
        rw [e4, hz]
        by_cases hy : y = x
        · subst hy
          rw [Function.update_self]
          constructor
          · intro e; cases e
          · intro hy
            exfalso
            rw [hab, List.nodup_append] at nd
            rcases List.mem_append.mp hy with hy | hy
            · exact nd.2.2 y hy y (by simp) rfl
            · exact (List.nodup_cons.mp nd.2.1).1 hy
        · rw [Function.update_of_ne hy, (w m).mem, hab]
          simp [hy]
      · rw [e5, Function.update_self, hi]
      · rw [e3]; exact (w m).top
    · rw [Function.update_of_ne hm]
      refine ⟨(w m).ring.frame ?_ ?_, ?_, ?_, ?_, ?_⟩
      · intro y hy
        rw [e1, Function.update_of_ne]
        rintro rfl; exact w.disjoint hm hy pin
      · intro y hy
        rw [e2, Function.update_of_ne]
        rintro rfl; exact w.disjoint hm hy qin
      · rw [e6, Function.update_of_ne hm]; exact (w m).count
      · intro y
        rw [e4]
        by_cases hy : y = x
        · subst hy
          rw [Function.update_self]
          constructor
          · intro e; cases e
          · intro hy
            have := ((w m).mem y).mpr hy
            rw [hc] at this
            exact absurd (Option.some.inj this).symm hm
        · rw [Function.update_of_ne hy]; exact (w m).mem y
      · rw [e5, Function.update_of_ne hm]; exact (w m).index
      · rw [e3]; exact (w m).top

theorem nextEntry_world {h : Heap L X} {c : L → Z X} (w : World h c) {l : L} {x : X} {z : Z X}
    (hz : (c l).next = some (x, z)) :
    ∃ h', nextEntry h l = .ok (x, h') ∧ h'.value = h.value ∧ h'.container = h.container ∧
      World h' (Function.update c l z) := by
  have hix := (w l).index
  have key : nextEntry h l = .ok (x, { h with index := Function.update h.index l (.item x) }) ∧
      z.all = (c l).all ∧ cursor l z.past = .item x := by
    rcases hcl : c l with ⟨a, b⟩
    rw [hcl] at hz hix
    cases b with
    | cons y b =>
      simp only [Z.next, Option.some.injEq, Prod.mk.injEq] at hz
      obtain ⟨rfl, rfl⟩ := hz
      have nb := (w.at (l := l) (a := a) (b := y :: b) (by rw [hcl]; rfl)).1
      refine ⟨?_, by simp [Z.all], cursor_append_singleton _ _ _⟩
      simp only [nextEntry, hix, nb, front]
      rfl
    | nil =>
      cases a with
      | nil => simp [Z.next] at hz
      | cons y a =>
        simp only [Z.next, Option.some.injEq, Prod.mk.injEq] at hz
        obtain ⟨rfl, rfl⟩ := hz
        have nb := (w.at (l := l) (a := y :: a) (b := []) (by rw [hcl]; rfl)).1
        have nm := (w.at (l := l) (a := []) (b := y :: a) (by rw [hcl]; simp [Z.all])).1
        have em : cursor l ([] : List X) = .mark l := rfl
        rw [em] at nm
        simp only [front] at nb nm
        refine ⟨?_, by simp [Z.all], by simp [cursor]⟩
        simp only [nextEntry, hix, nb, if_true, nm]
  obtain ⟨k1, k2, k3⟩ := key
  refine ⟨_, k1, rfl, rfl, fun m => ?_⟩
  by_cases hm : m = l
  · subst hm
    rw [Function.update_self]
    refine ⟨?_, ?_, ?_, ?_, (w m).top⟩
    · rw [k2]; exact (w m).ring.frame (fun _ _ => rfl) (fun _ _ => rfl)
    · rw [k2]; exact (w m).count
    · rw [k2]; exact (w m).mem
    · rw [k3]; simp
  · rw [Function.update_of_ne hm]
    refine ⟨(w m).ring.frame (fun _ _ => rfl) (fun _ _ => rfl), (w m).count, (w m).mem, ?_, (w m).top⟩
    simp only
    rw [Function.update_of_ne hm]; exact (w m).index

theorem setValue_world {h : Heap L X} {c : L → Z X} (w : World h c) (x : X) (v : Nat) :
    World (setValue h x v) c := by
  intro m
  refine ⟨(w m).ring.frame (fun _ _ => rfl) (fun _ _ => rfl), (w m).count, (w m).mem,
    (w m).index, ?_⟩
  rw [setValue]
  simp only
  rw [Function.update_of_ne (by simp)]
  exact (w m).top

theorem headEntry_world {h : Heap L X} {c : L → Z X} (w : World h c) {l : L} {x : X} {b : List X}
    (hb : (c l).all = x :: b) : headEntry h l = .ok x := by
  have nm := (w.at (l := l) (a := []) (b := x :: b) hb).1
  have em : cursor l ([] : List X) = .mark l := rfl
  rw [em, front] at nm
  simp only [headEntry, nm]

end Verif.KList
