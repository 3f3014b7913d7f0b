import Verif.Proofs.KernelWorld
import Verif.Model.Delay

set_option autoImplicit false
set_option linter.unusedSectionVars false

/-!
# C105: the kernel's linked lists are sequences
-/

namespace Verif.KList

variable {L X : Type} [DecidableEq L] [DecidableEq X]

/-! ## Reading memory -/

/-- Follow one kind of link from the address `a` until the end marker of `l`; `none` if that takes
more than `k` links or another list's marker is met. -/
def walk (link : Addr L X → Addr L X) (l : L) : Nat → Addr L X → Option (List X)
  | 0, _ => none
  | k + 1, a =>
    match link a with
    | .mark m => if m = l then some [] else none
    | .item x => (walk link l k (.item x)).map (x :: ·)

theorem walk_next {h : Heap L X} {c : L → Z X} (w : World h c) (l : L) :
    ∀ (b a : List X), (c l).all = a ++ b → walk h.next l (b.length + 1) (cursor l a) = some b
  | [], a, hab => by
    have := (w.at hab).1
    simp only [front] at this
    simp [walk, this]
  | x :: b, a, hab => by
    have h1 := (w.at hab).1
    simp only [front] at h1
    have ih := walk_next w l b (a ++ [x]) (by rw [hab]; simp)
    rw [cursor_append_singleton] at ih
    rw [List.length_cons, walk, h1]
    simp only [ih, Option.map_some]

theorem walk_prev {h : Heap L X} {c : L → Z X} (w : World h c) (l : L) :
    ∀ (n : Nat) (a b : List X), a.length = n → (c l).all = a ++ b →
      walk h.prev l (n + 1) (front l b) = some a.reverse
  | 0, a, b, hn, hab => by
    have ha := List.eq_nil_of_length_eq_zero hn
    subst ha
    have := (w.at hab).2
    simp only [cursor, List.getLast?_nil] at this
    simp [walk, this]
  | n + 1, a, b, hn, hab => by
    rcases List.eq_nil_or_concat a with rfl | ⟨a', x, rfl⟩
    · simp at hn
    · rw [List.concat_eq_append] at hn hab ⊢
      have h1 := (w.at hab).2
      rw [cursor_append_singleton] at h1
      have ih := walk_prev w l n a' (x :: b) (by simpa using hn) (by rw [hab]; simp)
      simp only [front] at ih
      rw [walk, h1]
      simp only [ih, Option.map_some, List.reverse_append, List.reverse_cons, List.reverse_nil,
        List.nil_append, List.singleton_append]

/-! ## Histories -/

/-- One operation of list.c. The number of loop steps given to `vListInsert` is the number of items
plus one. -/
def step (h : Heap L X) : Op L X → C (Ans X × Heap L X)
  | .value x v => .ok (.done, setValue h x v)
  | .insert l x =>
    match insert (h.count l + 1) h l x with
    | none => .error .assertFail
    | some h => .ok (.done, h)
  | .insertEnd l x => .ok (.done, insertEnd h l x)
  | .remove x =>
    match remove h x with
    | .error e => .error e
    | .ok (k, h) => .ok (.left k, h)
  | .next l =>
    match nextEntry h l with
    | .error e => .error e
    | .ok (x, h) => .ok (.item x, h)

def run (h : Heap L X) : List (Op L X) → C (List (Ans X) × Heap L X)
  | [] => .ok ([], h)
  | o :: os =>
    match step h o with
    | .error e => .error e
    | .ok (a, h) =>
      match run h os with
      | .error e => .error e
      | .ok (as, h) => .ok (a :: as, h)

/-- Memory and sequences agree. -/
structure Agree (h : Heap L X) (u : Use L X) : Prop where
  world : World h u.lists
  val : ∀ x, h.value (.item x) = u.val x
  home : h.container = u.home
  small : ∀ x, u.val x ≤ maxDelay

theorem update_eq (c : L → Z X) (l : L) (z : Z X) :
    (fun m => if m = l then z else c m) = Function.update c l z := by
  funext m
  by_cases h : m = l
  · subst h; simp
  · simp [h]

theorem update_home (f : X → Option L) (x : X) (o : Option L) :
    (fun y => if y = x then o else f y) = Function.update f x o := by
  funext y
  by_cases h : y = x
  · subst h; simp
  · simp [h]

theorem insert_container {fuel : Nat} {h h' : Heap L X} {l : L} {n : X}
    (e : insert fuel h l n = some h') : h'.container = Function.update h.container n (some l) := by
  unfold insert at e
  simp only at e
  split at e
  · cases e
  · rw [← Option.some.inj e]

theorem agree_step {h : Heap L X} {u u' : Use L X} {o : Op L X} {a : Ans X} (g : Agree h u)
    (hu : u.step o = some (a, u')) : ∃ h', step h o = .ok (a, h') ∧ Agree h' u' := by
  cases o with
  | value x v =>
    simp only [Use.step] at hu
    split_ifs at hu with hv
    simp only [Option.some.injEq, Prod.mk.injEq] at hu
    obtain ⟨rfl, rfl⟩ := hu
    refine ⟨_, rfl, setValue_world g.world x v, fun y => ?_, g.home, fun y => ?_⟩
    · simp only [setValue]
      by_cases hy : y = x
      · subst hy; simp
      · rw [Function.update_of_ne (by simpa using hy), if_neg hy]; exact g.val y
    · simp only
      split_ifs
      · exact hv
      · exact g.small y
  | insert l x =>
    simp only [Use.step] at hu
    split_ifs at hu with hn
    simp only [Option.some.injEq, Prod.mk.injEq] at hu
    obtain ⟨rfl, rfl⟩ := hu
    obtain ⟨h', e1, e2, e3⟩ := insert_world g.world l (n := x) (by rw [g.home]; exact hn)
      (fun y => by rw [g.val]; exact g.small y) (fuel := h.count l + 1)
      (by rw [(g.world l).count]; omega)
    refine ⟨h', by simp only [step, e1], ?_, fun y => by rw [e2]; exact g.val y, ?_, g.small⟩
    · simp only [update_eq]
      have : (fun x => h.value (.item x)) = u.val := funext g.val
      rw [← this]; exact e3
    · rw [insert_container e1, g.home]
      simp only [update_home]
  | insertEnd l x =>
    simp only [Use.step] at hu
    split_ifs at hu with hn
    simp only [Option.some.injEq, Prod.mk.injEq] at hu
    obtain ⟨rfl, rfl⟩ := hu
    refine ⟨_, rfl, ?_, g.val, ?_, g.small⟩
    · simp only [update_eq]
      exact insertEnd_world g.world l (by rw [g.home]; exact hn)
    · simp only [update_home]
      rw [← g.home]; rfl
  | remove x =>
    simp only [Use.step] at hu
    rcases hx : u.home x with _ | l
    · rw [hx] at hu; cases hu
    · rw [hx] at hu
      simp only [Option.some.injEq, Prod.mk.injEq] at hu
      obtain ⟨rfl, rfl⟩ := hu
      obtain ⟨h', e1, e2, e3, e4⟩ := remove_world g.world (l := l) (x := x) (by rw [g.home]; exact hx)
      refine ⟨h', by simp only [step, e1], ?_, fun y => by rw [e2]; exact g.val y, ?_, g.small⟩
      · simp only [update_eq]; exact e4
      · simp only [update_home]; rw [e3, g.home]
  | next l =>
    simp only [Use.step] at hu
    rcases hz : (u.lists l).next with _ | ⟨x, z⟩
    · rw [hz] at hu; cases hu
    · rw [hz] at hu
      simp only [Option.some.injEq, Prod.mk.injEq] at hu
      obtain ⟨rfl, rfl⟩ := hu
      obtain ⟨h', e1, e2, e3, e4⟩ := nextEntry_world g.world hz
      refine ⟨h', by simp only [step, e1], ?_, fun y => by rw [e2]; exact g.val y, by rw [e3]; exact g.home, g.small⟩
      simp only [update_eq]; exact e4

theorem agree_run : ∀ (os : List (Op L X)) {h : Heap L X} {u u' : Use L X} {as : List (Ans X)}
    (_ : Agree h u) (_ : u.run os = some (as, u')), ∃ h', run h os = .ok (as, h') ∧ Agree h' u'
  | [], h, u, u', as, g, hu => by
    simp only [Use.run, Option.some.injEq, Prod.mk.injEq] at hu
    obtain ⟨rfl, rfl⟩ := hu
    exact ⟨h, rfl, g⟩
  | o :: os, h, u, u', as, g, hu => by
    simp only [Use.run] at hu
    split at hu
    · cases hu
    · rename_i a u1 h1
      split at hu
      · cases hu
      · rename_i as1 u2 h2
        simp only [Option.some.injEq, Prod.mk.injEq] at hu
        obtain ⟨rfl, rfl⟩ := hu
        obtain ⟨hh, e1, g1⟩ := agree_step g h1
        obtain ⟨h', e2, g2⟩ := agree_run os g1 h2
        exact ⟨h', by simp only [run, e1, e2], g2⟩

/-- Nothing in any list. -/
def Use.empty (v : X → Nat) : Use L X := ⟨fun _ => ⟨[], []⟩, v, fun _ => none⟩

/-- What memory shows of list `l`: the items met along `pxNext` and along `pxPrevious` from the end
marker, and the number of items. -/
structure Shows (h : Heap L X) (l : L) (xs : List X) : Prop where
  forward : walk h.next l (xs.length + 1) (.mark l) = some xs
  backward : walk h.prev l (xs.length + 1) (.mark l) = some xs.reverse
  count : h.count l = xs.length
  member : ∀ x, h.container x = some l ↔ x ∈ xs

theorem Agree.shows {h : Heap L X} {u : Use L X} (g : Agree h u) (l : L) : Shows h l (u.lists l).all := by
  refine ⟨walk_next g.world l _ [] rfl, ?_, (g.world l).count, (g.world l).mem⟩
  exact walk_prev g.world l _ _ [] rfl (by simp)

/-- Any history that uses the lists rightly: the operations of list.c never follow a null pointer
and end; they answer what the operations on sequences answer; and then every list, read along
`pxNext` or along `pxPrevious`, is its sequence, has the right number of items, and the items that
name it as their container are those in it. -/
theorem C105_sequences (junk : X → Addr L X) {v : X → Nat} (hv : ∀ x, v x ≤ 4294967295)
    {os : List (Op L X)} {as : List (Ans X)} {u : Use L X} (hu : (Use.empty v).run os = some (as, u)) :
    ∃ h, run (init junk v : Heap L X) os = .ok (as, h) ∧ ∀ l, Shows h l (u.lists l).all := by
  obtain ⟨h, e, g⟩ := agree_run os (h := init junk v) (u := Use.empty v)
    ⟨world_init junk v, fun _ => rfl, rfl, hv⟩ hu
  exact ⟨h, e, g.shows⟩

/-- **C105, the first element.** Reading the owner of the head entry gives the first element of the
sequence. -/
theorem C105_head (junk : X → Addr L X) {v : X → Nat} (hv : ∀ x, v x ≤ 4294967295)
    {os : List (Op L X)} {as : List (Ans X)} {u : Use L X} (hu : (Use.empty v).run os = some (as, u))
    {l : L} {x : X} {xs : List X} (hx : (u.lists l).all = x :: xs) :
    ∃ h, run (init junk v : Heap L X) os = .ok (as, h) ∧ headEntry h l = .ok x := by
  obtain ⟨h, e, g⟩ := agree_run os (h := init junk v) (u := Use.empty v)
    ⟨world_init junk v, fun _ => rfl, rfl, hv⟩ hu
  exact ⟨h, e, headEntry_world g.1 hx⟩

/-- An operation on one list leaves the others alone. -/
theorem others_untouched {u u' : Use L X} {o : Op L X} {a : Ans X} (h : u.step o = some (a, u')) {l : L}
    (h1 : ∀ x, o ≠ .insert l x) (h2 : ∀ x, o ≠ .insertEnd l x) (h3 : o ≠ .next l)
    (h4 : ∀ x, o = .remove x → u.home x ≠ some l) : u'.lists l = u.lists l := by
  cases o with
  | value x v =>
    simp only [Use.step] at h
    split_ifs at h
    simp only [Option.some.injEq, Prod.mk.injEq] at h
    rw [← h.2]
  | insert m x =>
    have hm : l ≠ m := by rintro rfl; exact h1 x rfl
    simp only [Use.step] at h
    split_ifs at h
    simp only [Option.some.injEq, Prod.mk.injEq] at h
    rw [← h.2]; simp only [if_neg hm]
  | insertEnd m x =>
    have hm : l ≠ m := by rintro rfl; exact h2 x rfl
    simp only [Use.step] at h
    split_ifs at h
    simp only [Option.some.injEq, Prod.mk.injEq] at h
    rw [← h.2]; simp only [if_neg hm]
  | remove x =>
    simp only [Use.step] at h
    rcases hx : u.home x with _ | m
    · rw [hx] at h; cases h
    · have hm : l ≠ m := by rintro rfl; exact h4 x rfl hx
      rw [hx] at h
      simp only [Option.some.injEq, Prod.mk.injEq] at h
      rw [← h.2]; simp only [if_neg hm]
  | next m =>
    have hm : l ≠ m := by rintro rfl; exact h3 rfl
    simp only [Use.step] at h
    rcases hz : (u.lists m).next with _ | ⟨x, z⟩
    · rw [hz] at h; cases h
    · rw [hz] at h
      simp only [Option.some.injEq, Prod.mk.injEq] at h
      rw [← h.2]; simp only [if_neg hm]

/-! ## Sorted lists -/

/-- Ascending values. -/
def Ascending (val : X → Nat) (xs : List X) : Prop := xs.Pairwise fun a b => val a ≤ val b

theorem mem_put (val : X → Nat) (n y : X) : ∀ xs : List X, y ∈ put val n xs ↔ y = n ∨ y ∈ xs
  | [] => by simp [put]
  | x :: xs => by
    rw [put]
    split_ifs
    · rw [List.mem_cons, mem_put val n y xs, List.mem_cons]; tauto
    · simp

theorem put_ascending (val : X → Nat) (n : X) : ∀ {xs : List X}, Ascending val xs → Ascending val (put val n xs)
  | [], _ => by simp [put, Ascending]
  | x :: xs, h => by
    unfold Ascending at h ⊢
    rw [List.pairwise_cons] at h
    rw [put]
    split_ifs with hx
    · rw [List.pairwise_cons]
      refine ⟨fun y hy => ?_, put_ascending val n h.2⟩
      rcases (mem_put val n y xs).mp hy with rfl | hy
      · exact hx
      · exact h.1 y hy
    · rw [List.pairwise_cons, List.pairwise_cons]
      refine ⟨fun y hy => ?_, h⟩
      rcases List.mem_cons.mp hy with rfl | hy
      · omega
      · have := h.1 y hy; omega

theorem insert_all (val : X → Nat) (n : X) (z : Z X) : (z.insert val n).all = put val n z.all := by
  have h1 : ∀ a b : List X, (∀ x ∈ a, val x ≤ val n) → put val n (a ++ b) = a ++ put val n b := by
    intro a
    induction a with
    | nil => intro b _; rfl
    | cons x a ih =>
      intro b h
      rw [List.cons_append, put, if_pos (h x (by simp)), ih b (fun y hy => h y (by simp [hy]))]; rfl
  have h2 : ∀ a b : List X, ¬ (∀ x ∈ a, val x ≤ val n) → put val n (a ++ b) = put val n a ++ b := by
    intro a
    induction a with
    | nil => intro b h; exact absurd (by simp) h
    | cons x a ih =>
      intro b h
      rw [List.cons_append, put, put]
      by_cases hx : val x ≤ val n
      · rw [if_pos hx, if_pos hx, ih b]
        · rfl
        · intro hh; apply h
          intro y hy
          rcases List.mem_cons.mp hy with rfl | hy
          · exact hx
          · exact hh y hy
      · rw [if_neg hx, if_neg hx]; rfl
  unfold Z.insert Z.all
  split_ifs with h
  · exact (h1 _ _ h).symm
  · exact (h2 _ _ h).symm

/-- The delayed lists of the model of timed waits (C102) are sequences in this sense: its insertion
is the one of `vListInsert`. -/
theorem delay_insert_is_put (x : Delay.Item) : ∀ l : List Delay.Item,
    Delay.insert x l = put Delay.Item.val x l
  | [] => rfl
  | y :: l => by
    unfold Delay.insert put
    split_ifs
    · rw [delay_insert_is_put x l]
    · rfl

/-- The operations of a list that is kept sorted: items enter by value only, and keep their value
while they are in it. -/
def SortedUse (l : L) (u : Use L X) : Op L X → Prop
  | .value x _ => u.home x ≠ some l
  | .insertEnd m _ => m ≠ l
  | _ => True

theorem erase_all_sublist (z : Z X) (x : X) : (z.erase x).all.Sublist z.all := by
  unfold Z.erase Z.all
  exact List.Sublist.append List.erase_sublist List.erase_sublist

theorem next_all {z z' : Z X} {x : X} (h : z.next = some (x, z')) : z'.all = z.all := by
  rcases z with ⟨a, b⟩
  unfold Z.next at h
  unfold Z.all
  cases b with
  | cons y b =>
    simp only [Option.some.injEq, Prod.mk.injEq] at h
    rw [← h.2]; simp
  | nil =>
    cases a with
    | nil => cases h
    | cons y a =>
      simp only [Option.some.injEq, Prod.mk.injEq] at h
      rw [← h.2]; simp

/-- A list that is used that way stays sorted. -/
theorem sorted_step {h : Heap L X} {u u' : Use L X} {o : Op L X} {a : Ans X} {l : L} (g : Agree h u)
    (hu : u.step o = some (a, u')) (hs : SortedUse l u o) (ha : Ascending u.val (u.lists l).all) :
    Ascending u'.val (u'.lists l).all := by
  cases o with
  | value x v =>
    simp only [Use.step] at hu
    split_ifs at hu
    simp only [Option.some.injEq, Prod.mk.injEq] at hu
    rw [← hu.2]
    refine List.Pairwise.imp_of_mem ?_ ha
    intro y z hy hz hyz
    have hx : ∀ y ∈ (u.lists l).all, y ≠ x := by
      intro w hw e
      apply hs
      rw [← e, ← g.home]; exact ((g.world l).mem w).mpr hw
    simp only [if_neg (hx y hy), if_neg (hx z hz)]
    exact hyz
  | insert m x =>
    simp only [Use.step] at hu
    split_ifs at hu
    simp only [Option.some.injEq, Prod.mk.injEq] at hu
    rw [← hu.2]
    simp only
    by_cases hm : l = m
    · subst hm
      rw [if_pos rfl, insert_all]
      exact put_ascending _ _ ha
    · rw [if_neg hm]; exact ha
  | insertEnd m x =>
    simp only [Use.step] at hu
    split_ifs at hu
    simp only [Option.some.injEq, Prod.mk.injEq] at hu
    rw [← hu.2]
    simp only [if_neg (Ne.symm hs)]
    exact ha
  | remove x =>
    simp only [Use.step] at hu
    rcases hx : u.home x with _ | m
    · rw [hx] at hu; cases hu
    · rw [hx] at hu
      simp only [Option.some.injEq, Prod.mk.injEq] at hu
      rw [← hu.2]
      simp only
      by_cases hm : l = m
      · subst hm
        rw [if_pos rfl]
        exact List.Pairwise.sublist (erase_all_sublist _ _) ha
      · rw [if_neg hm]; exact ha
  | next m =>
    simp only [Use.step] at hu
    rcases hz : (u.lists m).next with _ | ⟨x, z⟩
    · rw [hz] at hu; cases hu
    · rw [hz] at hu
      simp only [Option.some.injEq, Prod.mk.injEq] at hu
      rw [← hu.2]
      simp only
      by_cases hm : l = m
      · subst hm; rw [if_pos rfl, next_all hz]; exact ha
      · rw [if_neg hm]; exact ha

/-- The same along a history. -/
def SortedRun (l : L) (u : Use L X) : List (Op L X) → Prop
  | [] => True
  | o :: os => SortedUse l u o ∧ ∀ a u', u.step o = some (a, u') → SortedRun l u' os

/-- A list into which items are only inserted by value shows, read along `pxNext`, ascending
values; an item is behind those of the same value that were there before it (`put`). -/
theorem C105_sorted (junk : X → Addr L X) {v : X → Nat} (hv : ∀ x, v x ≤ 4294967295)
    {os : List (Op L X)} {as : List (Ans X)} {u : Use L X} (hu : (Use.empty v).run os = some (as, u))
    {l : L} (hs : SortedRun l (Use.empty v) os) :
    ∃ h xs, run (init junk v : Heap L X) os = .ok (as, h) ∧ Shows h l xs ∧
      Ascending (fun x => h.value (.item x)) xs := by
  have key : ∀ (os : List (Op L X)) (h : Heap L X) (u u' : Use L X) (as : List (Ans X)), Agree h u →
      u.run os = some (as, u') → SortedRun l u os → Ascending u.val (u.lists l).all →
      ∃ h', run h os = .ok (as, h') ∧ Agree h' u' ∧ Ascending u'.val (u'.lists l).all := by
    intro os
    induction os with
    | nil =>
      intro h u u' as g hu _ ha
      simp only [Use.run, Option.some.injEq, Prod.mk.injEq] at hu
      obtain ⟨rfl, rfl⟩ := hu
      exact ⟨h, rfl, g, ha⟩
    | cons o os ih =>
      intro h u u' as g hu hs ha
      simp only [Use.run] at hu
      split at hu
      · cases hu
      · rename_i a u1 h1
        split at hu
        · cases hu
        · rename_i as1 u2 h2
          simp only [Option.some.injEq, Prod.mk.injEq] at hu
          obtain ⟨rfl, rfl⟩ := hu
          obtain ⟨hh, e1, g1⟩ := agree_step g h1
          obtain ⟨h', e2, g2, a2⟩ := ih hh u1 u2 as1 g1 h2 (hs.2 a u1 h1) (sorted_step g h1 hs.1 ha)
          exact ⟨h', by simp only [run, e1, e2], g2, a2⟩
  obtain ⟨h, e, g, a⟩ := key os (init junk v) (Use.empty v) u as
    ⟨world_init junk v, fun _ => rfl, rfl, hv⟩ hu hs (by simp [Use.empty, Z.all, Ascending])
  refine ⟨h, _, e, g.shows l, ?_⟩
  have : (fun x => h.value (.item x)) = u.val := funext g.val
  rw [this]; exact a

/-! ## Examples -/

/-- Two lists, four items. -/
def demo : List (Op Bool (Fin 4)) :=
  [.value 0 5, .value 1 3, .value 2 5, .value 3 4294967295, .insert true 0, .insert true 1,
    .insert true 3, .insert true 2, .insertEnd false 0]

/-- What memory shows along `pxNext` and `pxPrevious`. -/
def seen (os : List (Op Bool (Fin 4))) (l : Bool) :
    Option (List (Ans (Fin 4)) × Option (List (Fin 4)) × Option (List (Fin 4))) :=
  match run (init (fun _ => .mark true) (fun _ => 0)) os with
  | .error _ => none
  | .ok (as, h) => some (as, walk h.next l 9 (.mark l), walk h.prev l 9 (.mark l))

-- Sorted, equal values in order of arrival, the largest value at the end.
example : seen (demo.dropLast) true =
    some ([.done, .done, .done, .done, .done, .done, .done, .done], some [1, 0, 2, 3], some [3, 2, 0, 1]) := by
  decide +kernel
-- Turns, with an item that leaves while it is the current one.
example : seen [.insertEnd true 0, .insertEnd true 1, .insertEnd true 2, .next true, .next true, .remove 1,
    .next true, .insertEnd true 1, .next true] true =
    some ([.done, .done, .done, .item 0, .item 1, .left 2, .item 2, .done, .item 0],
      some [0, 1, 2], some [2, 1, 0]) := by decide +kernel
-- Wrong use, an item that is inserted while it is in another list, mixes the two lists up: read
-- either way, the first list runs into the second.
example : ((Use.empty (L := Bool) (X := Fin 4) (fun _ => 0)).run demo).isNone = true ∧
    (seen demo true).map (fun r => (r.2.1, r.2.2)) = some (none, none) := by
  constructor <;> decide +kernel

end Verif.KList
