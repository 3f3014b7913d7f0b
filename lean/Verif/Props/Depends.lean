import Verif.Model.Depends
import Mathlib.Data.List.Nodup

set_option autoImplicit false

/-!
# Module registry (C57)
-/

namespace Verif.Depends

theorem registerAll_spec : ∀ (bs : List Bool) (n : Nat),
    n + bs.count true < 2 ^ 32 →
    registerAll ⟨UInt32.ofNat n⟩ bs =
      ((List.range' n (bs.count true)).map UInt32.ofNat, ⟨UInt32.ofNat (n + bs.count true)⟩)
  | [], n, _ => rfl
  | false :: bs, n, h => by
    have h' : n + bs.count true < 2 ^ 32 := by simpa using h
    have ih := registerAll_spec bs n h'
    show (([] : List UInt32) ++ _, _) = _
    rw [show (registerModule ⟨UInt32.ofNat n⟩ false).2 = ⟨UInt32.ofNat n⟩ from rfl, ih]
    simp
  | true :: bs, n, h => by
    have h' : (n + 1) + bs.count true < 2 ^ 32 := by
      rw [List.count_cons_self] at h; omega
    have ih := registerAll_spec bs (n + 1) h'
    have e : (registerModule ⟨UInt32.ofNat n⟩ true).2 = ⟨UInt32.ofNat (n + 1)⟩ := by
      show (⟨UInt32.ofNat n + 1⟩ : St) = _
      congr 1
      apply UInt32.toNat_inj.1
      simp
    show ([UInt32.ofNat n] ++ _, _) = _
    rw [e, ih, List.count_cons_self, List.range'_succ]
    rw [show n + 1 + bs.count true = n + (bs.count true + 1) by omega]
    rfl

theorem toNat_ofNat {n : Nat} (h : n < 2 ^ 32) : (UInt32.ofNat n).toNat = n := by
  simp [Nat.mod_eq_of_lt h]

/-- **C57, for fewer than 2^32 - 1 registrations.** From power-up, after every history of
registrations: the issued ids are pairwise distinct and nonzero, a registration with a place for
its id always gets one, one without gets none, and the dependency check accepts exactly the
issued ids. Missing: histories long enough for the 32-bit counter to wrap, see `C57_wrap`. -/
theorem C57_ids_partial (bs : List Bool) (h : 1 + bs.count true < 2 ^ 32) :
    let r := registerAll start bs
    r.1.length = bs.count true ∧ r.1.Nodup ∧ (0 : UInt32) ∉ r.1 ∧
      ∀ id, dependOn r.2 id = true ↔ id ∈ r.1 := by
  have e := registerAll_spec bs 1 h
  have es : registerAll start bs = _ := e
  dsimp only
  rw [es]
  refine ⟨by simp, ?_, ?_, ?_⟩
  · refine List.Nodup.map_on ?_ (List.nodup_range' ..)
    intro a ha b hb hab
    have ha' : a < 2 ^ 32 := by have := (List.mem_range'_1.1 ha).2; omega
    have hb' : b < 2 ^ 32 := by have := (List.mem_range'_1.1 hb).2; omega
    rw [← toNat_ofNat ha', hab, toNat_ofNat hb']
  · intro hm
    obtain ⟨a, ha, h0⟩ := List.mem_map.1 hm
    have ha2 := List.mem_range'_1.1 ha
    have := congrArg UInt32.toNat h0
    rw [toNat_ofNat (by omega)] at this
    simp at this
    omega
  · intro id
    simp only [dependOn, decide_eq_true_eq, List.mem_map, List.mem_range'_1]
    constructor
    · rintro ⟨h1, h2⟩
      have h1' := UInt32.lt_iff_toNat_lt.1 h1
      have h2' := UInt32.lt_iff_toNat_lt.1 h2
      rw [toNat_ofNat h] at h2'
      refine ⟨id.toNat, ⟨?_, h2'⟩, by simp⟩
      have : (0 : UInt32).toNat = 0 := rfl
      omega
    · rintro ⟨a, ⟨ha1, ha2⟩, rfl⟩
      rw [gt_iff_lt, UInt32.lt_iff_toNat_lt, UInt32.lt_iff_toNat_lt, toNat_ofNat (by omega),
        toNat_ofNat h]
      exact ⟨by show 0 < a; omega, ha2⟩

/-- **C57 fails at the wrap.** After 2^32 - 1 registrations (with any number of refused ones in
between) the check accepts no id at all although all are issued, and the next id is 0. -/
theorem C57_wrap (bs : List Bool) (h : bs.count true = 2 ^ 32 - 2) :
    let s := (registerModule (registerAll start bs).2 true).2
    (∀ id, dependOn s id = false) ∧ (registerModule s true).1 = some 0 := by
  have e : registerAll start bs = _ := registerAll_spec bs 1 (by omega)
  dsimp only
  rw [e, h]
  have z : (registerModule ⟨UInt32.ofNat (1 + (2 ^ 32 - 2))⟩ true).2 = ⟨0⟩ := by decide +kernel
  rw [z]
  refine ⟨fun id => ?_, rfl⟩
  simp [dependOn]

/-- Two modules register, one call passes no place. -/
example : registerAll start [true, false, true] = ([1, 2], ⟨3⟩) := by decide
example : dependOn (registerAll start [true, false, true]).2 2 = true ∧
    dependOn (registerAll start [true, false, true]).2 3 = false := by decide

end Verif.Depends
