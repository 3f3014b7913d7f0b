import Verif.Spec.Sbrk
import Mathlib.Tactic.Linarith

/-!
# C121: the heap stays between the program's data and the main stack
-/

set_option autoImplicit false

namespace Verif.Sbrk

/-- The end of the heap. -/
def endOf (start : Nat) (h : Heap) : Nat :=
  match h with
  | none => start
  | some e => e

theorem addWrap_eq (a : Nat) (i : Int) (h0 : 0 ≤ (a : Int) + i) (h1 : (a : Int) + i < 2 ^ 32) :
    addWrap a i = ((a : Int) + i).toNat := by
  unfold addWrap
  rw [Int.emod_eq_of_lt h0 h1]

theorem sbrk_eq (start : Nat) (h : Heap) (i : Int) :
    sbrk start h i =
      if addWrap (endOf start h) i > maxHeap then (none, some (endOf start h))
      else (some (endOf start h), some (addWrap (endOf start h) i)) := by
  cases h <;> rfl

theorem run_ideal (start : Nat) (hl : Linked start) (reqs : List Int) :
    ∀ (h : Heap) (k : Int), (endOf start h : Int) = start + k → 0 ≤ k → start + k ≤ limit →
      Fair start k reqs → (run start h reqs).1 = ideal start k reqs := by
  induction reqs with
  | nil => intros; rfl
  | cons i is ih =>
      intro h k he hk hlim hf
      obtain ⟨f1, f2, f3, f4⟩ := hf
      simp only [Linked] at hl
      simp only [limit] at hlim
      have hw : addWrap (endOf start h) i = ((endOf start h : Int) + i).toNat := by
        apply addWrap_eq <;> omega
      have hmax : maxHeap = 0x2007FC00 := by decide
      simp only [run, sbrk_eq, hw, ideal]
      by_cases hc : (start : Int) + k + i ≤ limit
      · have hc' : ¬(((endOf start h : Int) + i).toNat > maxHeap) := by
          simp only [limit] at hc; omega
        rw [if_neg hc', if_pos hc]
        rw [if_pos hc] at f4
        have := ih (some ((endOf start h : Int) + i).toNat) (k + i)
          (by change ((((endOf start h : Int) + i).toNat : Nat) : Int) = _; omega) f3 (by omega) f4
        dsimp only
        rw [this, ← he]
        congr 2
      · have hc' : ((endOf start h : Int) + i).toNat > maxHeap := by
          simp only [limit] at hc; omega
        rw [if_pos hc', if_neg hc]
        rw [if_neg hc] at f4
        have := ih (some (endOf start h)) k he hk
          (by simp only [limit]; omega) f4
        dsimp only
        rw [this]

/-- Every history of requests is answered as by a heap that begins at the end of the program's
data, ends 1 KiB below the end of the memory, and refuses exactly what does not fit, provided no
more is ever given back than is in use. -/
theorem C121_as_ideal (start : Nat) (hl : Linked start) (reqs : List Int)
    (hf : Fair start 0 reqs) : (run start none reqs).1 = ideal start 0 reqs := by
  apply run_ideal start hl reqs none 0 (by simp [endOf]) (le_refl 0) _ hf
  simp only [Linked] at hl
  simp only [limit]
  omega

theorem ideal_length (start : Nat) (reqs : List Int) : ∀ k, (ideal start k reqs).length =
    reqs.length := by
  induction reqs with
  | nil => intro k; rfl
  | cons i is ih => intro k; simp only [ideal]; split_ifs <;> simp [ih]

theorem ideal_bounds (start : Nat) (reqs : List Int) :
    ∀ (k : Int), 0 ≤ k → Fair start k reqs → ∀ (n : Nat) (i : Int) (a : Nat),
      reqs[n]? = some i → (ideal start k reqs)[n]? = some (some a) →
      start ≤ a ∧ (a : Int) + i ≤ limit ∧ (start : Int) ≤ a + i := by
  induction reqs with
  | nil => intro k _ _ n i a h; simp at h
  | cons j js ih =>
      intro k hk hf n i a hi ha
      obtain ⟨-, -, f3, f4⟩ := hf
      simp only [ideal] at ha
      by_cases hc : (start : Int) + k + j ≤ limit
      · rw [if_pos hc] at ha f4
        cases n with
        | zero =>
            simp at hi ha
            subst hi
            omega
        | succ n =>
            simp at hi ha
            exact ih (k + j) f3 f4 n i a hi ha
      · rw [if_neg hc] at ha f4
        cases n with
        | zero => simp at ha
        | succ n =>
            simp at hi ha
            exact ih k hk f4 n i a hi ha

/-- Memory that is handed out begins no lower than the end of the program's data and ends below
what is kept for the main stack, in every history. -/
theorem C121_in_bounds (start : Nat) (hl : Linked start) (reqs : List Int)
    (hf : Fair start 0 reqs) (n : Nat) (i : Int) (a : Nat) (hi : reqs[n]? = some i)
    (ha : (run start none reqs).1[n]? = some (some a)) :
    start ≤ a ∧ (a : Int) + i ≤ 0x20000000 + 524288 - 1024 := by
  rw [C121_as_ideal start hl reqs hf] at ha
  have h := ideal_bounds start reqs 0 (le_refl 0) hf n i a hi ha
  refine ⟨h.1, ?_⟩
  have := h.2.1
  simp only [limit] at this
  omega

theorem ideal_above (start : Nat) (reqs : List Int) (hpos : ∀ i ∈ reqs, 0 ≤ i) :
    ∀ (k : Int), 0 ≤ k → ∀ (n : Nat) (a : Nat),
      (ideal start k reqs)[n]? = some (some a) → start + k ≤ a := by
  induction reqs with
  | nil => intro k _ n a h; simp [ideal] at h
  | cons j js ih =>
      intro k hk n a ha
      have hj := hpos j List.mem_cons_self
      have hjs : ∀ i ∈ js, 0 ≤ i := fun i hi => hpos i (List.mem_cons_of_mem _ hi)
      simp only [ideal] at ha
      by_cases hc : (start : Int) + k + j ≤ limit
      · rw [if_pos hc] at ha
        cases n with
        | zero => simp at ha; omega
        | succ n =>
            simp at ha
            have := ih hjs (k + j) (by omega) n a ha
            omega
      · rw [if_neg hc] at ha
        cases n with
        | zero => simp at ha
        | succ n => simp at ha; exact ih hjs k hk n a ha

/-- What is handed out later lies above all that was handed out before, as long as nothing is
given back: no two blocks overlap. -/
theorem C121_disjoint (start : Nat) (hl : Linked start) (reqs : List Int)
    (hpos : ∀ i ∈ reqs, 0 ≤ i ∧ i < 2 ^ 31) (m n : Nat) (hmn : m < n) (i : Int) (a b : Nat)
    (hi : reqs[m]? = some i) (ha : (run start none reqs).1[m]? = some (some a))
    (hb : (run start none reqs).1[n]? = some (some b)) : (a : Int) + i ≤ b := by
  have hfair : ∀ (rs : List Int), (∀ i ∈ rs, 0 ≤ i ∧ i < 2 ^ 31) → ∀ k, 0 ≤ k →
      Fair start k rs := by
    intro rs
    induction rs with
    | nil => intros; trivial
    | cons j js ih =>
        intro h k hk
        have hj := h j List.mem_cons_self
        have hjs : ∀ i ∈ js, 0 ≤ i ∧ i < 2 ^ 31 := fun i hi => h i (List.mem_cons_of_mem _ hi)
        refine ⟨by omega, hj.2, by omega, ?_⟩
        split_ifs
        · exact ih hjs _ (by omega)
        · exact ih hjs _ hk
  rw [C121_as_ideal start hl reqs (hfair reqs hpos 0 (le_refl 0))] at ha hb
  have key : ∀ (rs : List Int), (∀ i ∈ rs, 0 ≤ i) → ∀ (k : Int), 0 ≤ k → ∀ (m n : Nat), m < n →
      ∀ (i : Int) (a b : Nat), rs[m]? = some i → (ideal start k rs)[m]? = some (some a) →
      (ideal start k rs)[n]? = some (some b) → (a : Int) + i ≤ (b : Nat) := by
    intro rs
    induction rs with
    | nil => intro _ k _ m n _ i a b h; simp at h
    | cons j js ih =>
        intro h k hk m n hmn i a b hi ha hb
        have hj := h j List.mem_cons_self
        have hjs : ∀ i ∈ js, 0 ≤ i := fun i hi => h i (List.mem_cons_of_mem _ hi)
        obtain ⟨n, rfl⟩ : ∃ n', n = n' + 1 := ⟨n - 1, by omega⟩
        simp only [ideal] at ha hb
        by_cases hc : (start : Int) + k + j ≤ limit
        · rw [if_pos hc] at ha hb
          simp at hb
          cases m with
          | zero =>
              simp at hi ha
              subst hi
              have := ideal_above start js hjs (k + j) (by omega) n b hb
              omega
          | succ m =>
              simp at hi ha
              exact ih hjs (k + j) (by omega) m n (by omega) i a b hi ha hb
        · rw [if_neg hc] at ha hb
          simp at hb
          cases m with
          | zero => simp at ha
          | succ m =>
              simp at hi ha
              exact ih hjs k hk m n (by omega) i a b hi ha hb
  exact key reqs (fun i hi => (hpos i hi).1) 0 (le_refl 0) m n hmn i a b hi ha hb

/-- The first half kibibyte can always be had, in one piece or several: the linker has checked that
it is there. -/
theorem C121_first_512 (start : Nat) (hl : Linked start) (reqs : List Int)
    (hpos : ∀ i ∈ reqs, 0 ≤ i) (hsum : reqs.sum ≤ 512) :
    ∀ r ∈ (run start none reqs).1, r ≠ none := by
  have hle : ∀ (rs : List Int), (∀ i ∈ rs, 0 ≤ i) → 0 ≤ rs.sum := by
    intro rs h
    induction rs with
    | nil => simp
    | cons j js ih =>
        have hj := h j List.mem_cons_self
        have := ih (fun i hi => h i (List.mem_cons_of_mem _ hi))
        simp; omega
  simp only [Linked] at hl
  have key : ∀ (rs : List Int), (∀ i ∈ rs, 0 ≤ i) → ∀ (k : Int), 0 ≤ k → k + rs.sum ≤ 512 →
      Fair start k rs ∧ ∀ r ∈ ideal start k rs, r ≠ none := by
    intro rs
    induction rs with
    | nil => intro _ k _ _; exact ⟨trivial, by simp [ideal]⟩
    | cons j js ih =>
        intro h k hk hs
        have hj := h j List.mem_cons_self
        have hjs : ∀ i ∈ js, 0 ≤ i := fun i hi => h i (List.mem_cons_of_mem _ hi)
        have hpos := hle js hjs
        simp at hs
        have hc : (start : Int) + k + j ≤ limit := by simp only [limit]; omega
        obtain ⟨h1, h2⟩ := ih hjs (k + j) (by omega) (by omega)
        refine ⟨⟨by omega, by omega, by omega, by rw [if_pos hc]; exact h1⟩, ?_⟩
        simp only [ideal]
        rw [if_pos hc]
        intro r hr
        rcases List.mem_cons.mp hr with rfl | hr
        · simp
        · exact h2 r hr
  obtain ⟨h1, h2⟩ := key reqs hpos 0 (le_refl 0) (by omega)
  rw [C121_as_ideal start hl reqs h1]
  exact h2

/-- There is no check downwards: whoever gives back more than is in use, by any amount, succeeds,
and is next given memory that belongs to the program's own data. -/
theorem C121_below (start : Nat) (hl : Linked start) (i : Int) (hi : i < 0)
    (hi' : 0 ≤ start + i) :
    (run start none [i, 1]).1 = [some start, some (start + i).toNat] ∧
      (start + i).toNat < start := by
  simp only [Linked] at hl
  have hmax : maxHeap = 0x2007FC00 := by decide
  have h1 : addWrap start i = ((start : Int) + i).toNat := by apply addWrap_eq <;> omega
  have h2 : addWrap ((start : Int) + i).toNat 1 = ((start : Int) + i).toNat + 1 := by
    rw [addWrap_eq] <;> omega
  have hn : ¬(((start : Int) + i).toNat > maxHeap) := by omega
  have hn2 : ¬(((start : Int) + i).toNat + 1 > maxHeap) := by omega
  refine ⟨?_, by omega⟩
  have e1 : sbrk start none i = (some start, some ((start : Int) + i).toNat) := by
    rw [sbrk_eq]
    change (if addWrap start i > maxHeap then _ else (some start, some (addWrap start i))) = _
    rw [if_neg (by rw [h1]; exact hn), h1]
  have e2 : sbrk start (some ((start : Int) + i).toNat) 1 =
      (some ((start : Int) + i).toNat, some (((start : Int) + i).toNat + 1)) := by
    rw [sbrk_eq]
    change (if addWrap ((start : Int) + i).toNat 1 > maxHeap then _ else
      (some ((start : Int) + i).toNat, some (addWrap ((start : Int) + i).toNat 1))) = _
    rw [if_neg (by rw [h2]; exact hn2), h2]
  simp only [run, e1, e2]

/-- 400 KiB, 100 KiB, 20 KiB which do not fit, and 8 KiB which do. -/
example : (run 0x20001000 none [400 * 1024, 100 * 1024, 20 * 1024, -100 * 1024, 20 * 1024]).1 =
    [some 0x20001000, some 0x20065000, none, some 0x2007E000, some 0x20065000] := by
  decide +kernel

example : Fair 0x20001000 0 [400 * 1024, 100 * 1024, 20 * 1024, -100 * 1024, 20 * 1024] := by
  simp [Fair, limit]

end Verif.Sbrk
