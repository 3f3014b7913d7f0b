import Verif.Spec.Reset
import Mathlib.Tactic.SplitIfs

set_option autoImplicit false

/-!
# C126: global objects have their initial values when `main` begins
-/

namespace Verif.Reset

open Verif.Reset.Spec

theorem steps_add (L : Link) (n k : Nat) (s t : St) (h : steps L n s = some t) :
    steps L (n + k) s = steps L k t := by
  induction n generalizing s with
  | zero =>
    simp only [steps, Option.some.injEq] at h
    subst h
    rw [Nat.zero_add]
  | succ n ih =>
    rw [Nat.add_right_comm]
    simp only [steps] at h ⊢
    cases hs : step L s with
    | none => rw [hs] at h; cases h
    | some u =>
      rw [hs] at h
      exact ih u h

/-- The entry. -/
theorem run_entry (L : Link) (s : St) (h : s.pc = 0) :
    ∃ t, steps L 6 s = some t ∧ t.pc = 9 ∧ t.mem = s.mem ∧ t.r 13 = L.estack ∧ t.r 0 = L.sdata ∧
      t.r 1 = L.edata ∧ t.r 2 = L.sidata ∧ t.r 3 = 0 := by
  obtain ⟨r, c, pc, m⟩ := s
  dsimp only at h
  subst h
  exact ⟨_, rfl, rfl, rfl, rfl, rfl, rfl, rfl, rfl⟩

/-- The test of the copying loop. -/
theorem run_copyTest (L : Link) (s : St) (h : s.pc = 9) (hb : s.r 0 + s.r 3 < 2 ^ 32) :
    ∃ t, steps L 3 s = some t ∧ t.pc = (if s.r 1 ≤ s.r 0 + s.r 3 then 12 else 6) ∧ t.mem = s.mem ∧
      ∀ k, k ≠ 4 → t.r k = s.r k := by
  obtain ⟨r, c, pc, m⟩ := s
  dsimp only at h hb ⊢
  subst h
  by_cases hle : r 1 ≤ r 0 + r 3
  · refine ⟨⟨fun k => if k = 4 then (r 0 + r 3) % 2 ^ 32 else r k, true, 12,
      m⟩, ?_, ?_, rfl, ?_⟩
    · simp [steps, step, program, exec1, next, setR, Nat.mod_eq_of_lt hb, hle]
    · simp [hle]
    · intro k hk
      simp [hk]
  · refine ⟨⟨fun k => if k = 4 then (r 0 + r 3) % 2 ^ 32 else r k, false, 6,
      m⟩, ?_, ?_, rfl, ?_⟩
    · simp [steps, step, program, exec1, next, setR, Nat.mod_eq_of_lt hb, hle]
    · simp [hle]
    · intro k hk
      simp [hk]

/-- The body of the copying loop. -/
theorem run_copyBody (L : Link) (s : St) (h : s.pc = 6) (h4 : (s.r 2 + s.r 3) % 4 = 0)
    (h4' : (s.r 0 + s.r 3) % 4 = 0) (hb : s.r 0 + s.r 3 < 2 ^ 32) (hb' : s.r 2 + s.r 3 < 2 ^ 32)
    (hb3 : s.r 3 + 4 < 2 ^ 32) :
    ∃ t, steps L 3 s = some t ∧ t.pc = 9 ∧
      t.mem = (fun k => if k = s.r 0 + s.r 3 then s.mem (s.r 2 + s.r 3) else s.mem k) ∧
      t.r 3 = s.r 3 + 4 ∧ ∀ k, k ≠ 3 → k ≠ 4 → t.r k = s.r k := by
  obtain ⟨r, c, pc, m⟩ := s
  dsimp only at h h4 h4' hb hb' hb3 ⊢
  subst h
  refine ⟨⟨fun k => if k = 3 then r 3 + 4 else if k = 4 then m (r 2 + r 3) else r k, false, 9,
    fun k => if k = r 0 + r 3 then m (r 2 + r 3) else m k⟩, ?_, rfl, rfl, rfl, ?_⟩
  · have hc : ¬ (2 ^ 32 ≤ r 3 + 4) := by omega
    simp [steps, step, program, exec1, next, setR, Nat.mod_eq_of_lt hb, Nat.mod_eq_of_lt hb', h4, h4',
      Nat.mod_eq_of_lt hb3]
    omega
  · intro k h3 h4
    simp [h3, h4]

/-- Between the loops. -/
theorem run_middle (L : Link) (s : St) (h : s.pc = 12) :
    ∃ t, steps L 4 s = some t ∧ t.pc = 18 ∧ t.mem = s.mem ∧ t.r 2 = L.sbss ∧ t.r 4 = L.ebss ∧
      t.r 3 = 0 ∧ t.r 13 = s.r 13 := by
  obtain ⟨r, c, pc, m⟩ := s
  dsimp only at h
  subst h
  exact ⟨_, rfl, rfl, rfl, rfl, rfl, rfl, rfl⟩

/-- The test of the filling loop. -/
theorem run_fillTest (L : Link) (s : St) (h : s.pc = 18) :
    ∃ t, steps L 2 s = some t ∧ t.pc = (if s.r 4 ≤ s.r 2 then done else 16) ∧ t.mem = s.mem ∧
      ∀ k, t.r k = s.r k := by
  obtain ⟨r, c, pc, m⟩ := s
  dsimp only at h ⊢
  subst h
  by_cases hle : r 4 ≤ r 2
  · refine ⟨⟨r, true, done, m⟩, ?_, ?_, rfl, fun _ => rfl⟩
    · simp [steps, step, program, exec1, next, hle, done]
    · simp [hle]
  · refine ⟨⟨r, false, 16, m⟩, ?_, ?_, rfl, fun _ => rfl⟩
    · simp [steps, step, program, exec1, next, hle]
    · simp [hle]

/-- The body of the filling loop. -/
theorem run_fillBody (L : Link) (s : St) (h : s.pc = 16) (h4 : s.r 2 % 4 = 0)
    (hb : s.r 2 + 4 < 2 ^ 32) :
    ∃ t, steps L 2 s = some t ∧ t.pc = 18 ∧
      t.mem = (fun k => if k = s.r 2 then s.r 3 else s.mem k) ∧
      t.r 2 = s.r 2 + 4 ∧ ∀ k, k ≠ 2 → t.r k = s.r k := by
  obtain ⟨r, c, pc, m⟩ := s
  dsimp only at h h4 hb ⊢
  subst h
  refine ⟨⟨fun k => if k = 2 then r 2 + 4 else r k, false, 18,
    fun k => if k = r 2 then r 3 else m k⟩, ?_, rfl, rfl, rfl, ?_⟩
  · simp [steps, step, program, exec1, next, setR, h4, Nat.mod_eq_of_lt hb]
    omega
  · intro k h2
    simp [h2]

/-- The copying loop. -/
theorem run_copy (L : Link) (hL : Sound L) (m : Nat → Nat) (n : Nat) (s : St) (hpc : s.pc = 9)
    (h0 : s.r 0 = L.sdata) (h1 : s.r 1 = L.edata) (h2 : s.r 2 = L.sidata) (h34 : s.r 3 % 4 = 0)
    (hn : L.sdata + s.r 3 + 4 * n = L.edata)
    (hm : ∀ a, s.mem a = if L.sdata ≤ a ∧ a < L.sdata + s.r 3 ∧ a % 4 = 0
      then m (L.sidata + (a - L.sdata)) else m a) :
    ∃ j t, steps L j s = some t ∧ t.pc = 12 ∧ t.r 13 = s.r 13 ∧
      ∀ a, t.mem a = if L.sdata ≤ a ∧ a < L.edata ∧ a % 4 = 0
        then m (L.sidata + (a - L.sdata)) else m a := by
  obtain ⟨a1, a2, a3, a4, a5, a6, a7, a8, a9, a10⟩ := hL
  induction n generalizing s with
  | zero =>
    obtain ⟨t, ht, hp, hme, hr⟩ := run_copyTest L s hpc (by omega)
    refine ⟨3, t, ht, ?_, hr 13 (by decide), ?_⟩
    · rw [hp, if_pos (by omega)]
    · intro a
      rw [hme, hm a, (by omega : L.sdata + s.r 3 = L.edata)]
  | succ n ih =>
    obtain ⟨t, ht, hp, hme, hr⟩ := run_copyTest L s hpc (by omega)
    rw [if_neg (by omega)] at hp
    have r0 := hr 0 (by decide)
    have r1 := hr 1 (by decide)
    have r2 := hr 2 (by decide)
    have r3 := hr 3 (by decide)
    obtain ⟨u, hu, hpu, hmu, h3u, hru⟩ := run_copyBody L t hp (by omega) (by omega) (by omega)
      (by omega) (by omega)
    obtain ⟨j, v, hv, h12, h13, hmem⟩ := ih u hpu (by rw [hru 0 (by decide) (by decide)]; omega)
      (by rw [hru 1 (by decide) (by decide)]; omega) (by rw [hru 2 (by decide) (by decide)]; omega)
      (by omega) (by omega) (by
        intro a
        rw [hmu]
        dsimp only
        rw [h3u]
        by_cases ha : a = t.r 0 + t.r 3
        · rw [if_pos ha, if_pos ⟨by omega, by omega, by omega⟩, hme,
            hm (t.r 2 + t.r 3), if_neg (by omega)]
          congr 1
          omega
        · rw [if_neg ha, hme, hm a]
          by_cases hc : L.sdata ≤ a ∧ a < L.sdata + s.r 3 ∧ a % 4 = 0
          · rw [if_pos hc, if_pos ⟨hc.1, by omega, hc.2.2⟩]
          · rw [if_neg hc, if_neg (by omega)])
    refine ⟨3 + (3 + j), v, ?_, h12, ?_, hmem⟩
    · rw [steps_add L 3 (3 + j) s t ht, steps_add L 3 j t u hu]
      exact hv
    · rw [h13, hru 13 (by decide) (by decide), hr 13 (by decide)]

/-- The filling loop. -/
theorem run_fill (L : Link) (hL : Sound L) (m : Nat → Nat) (n : Nat) (s : St) (hpc : s.pc = 18)
    (h4 : s.r 4 = L.ebss) (h3 : s.r 3 = 0) (h24 : s.r 2 % 4 = 0) (hlo : L.sbss ≤ s.r 2)
    (hn : s.r 2 + 4 * n = L.ebss)
    (hm : ∀ a, s.mem a = if L.sbss ≤ a ∧ a < s.r 2 ∧ a % 4 = 0 then 0 else m a) :
    ∃ j t, steps L j s = some t ∧ t.pc = done ∧ t.r 13 = s.r 13 ∧
      ∀ a, t.mem a = if L.sbss ≤ a ∧ a < L.ebss ∧ a % 4 = 0 then 0 else m a := by
  obtain ⟨a1, a2, a3, a4, a5, a6, a7, a8, a9, a10⟩ := hL
  induction n generalizing s with
  | zero =>
    obtain ⟨t, ht, hp, hme, hr⟩ := run_fillTest L s hpc
    refine ⟨2, t, ht, ?_, hr 13, ?_⟩
    · rw [hp, if_pos (by omega)]
    · intro a
      rw [hme, hm a, (by omega : s.r 2 = L.ebss)]
  | succ n ih =>
    obtain ⟨t, ht, hp, hme, hr⟩ := run_fillTest L s hpc
    rw [if_neg (by omega)] at hp
    have r2 := hr 2
    have r3 := hr 3
    have r4 := hr 4
    obtain ⟨u, hu, hpu, hmu, h2u, hru⟩ := run_fillBody L t hp (by omega) (by omega)
    obtain ⟨j, v, hv, hd, h13, hmem⟩ := ih u hpu (by rw [hru 4 (by decide)]; omega)
      (by rw [hru 3 (by decide)]; omega) (by omega) (by omega) (by omega) (by
        intro a
        rw [hmu]
        dsimp only
        rw [h2u]
        by_cases ha : a = t.r 2
        · rw [if_pos ha, if_pos ⟨by omega, by omega, by omega⟩]
          omega
        · rw [if_neg ha, hme, hm a]
          by_cases hc : L.sbss ≤ a ∧ a < s.r 2 ∧ a % 4 = 0
          · rw [if_pos hc, if_pos ⟨hc.1, by omega, hc.2.2⟩]
          · rw [if_neg hc, if_neg (by omega)])
    refine ⟨2 + (2 + j), v, ?_, hd, ?_, hmem⟩
    · rw [steps_add L 2 (2 + j) s t ht, steps_add L 2 j t u hu]
      exact hv
    · rw [h13, hru 13 (by decide), hr 13]

/-- **C126.**  Whatever registers and memory hold at reset, the handler comes to the call of
`SystemInit` without a fault; then every global object has its initial value, every other word of
memory is as it was, and the stack pointer is at the top of the memory. -/
theorem C126_globals_initialised (L : Link) (hL : Sound L) (s : St) (hs : s.pc = 0) :
    ∃ n t, steps L n s = some t ∧ t.pc = done ∧ t.r 13 = L.estack ∧
      ∀ a, a % 4 = 0 → t.mem a = startValue L s.mem a := by
  obtain ⟨s1, h1, p1, m1, r13, r0, r1, r2, r3⟩ := run_entry L s hs
  obtain ⟨a1, a2, a3, a4, a5, a6, a7, a8, a9, a10⟩ := id hL
  obtain ⟨j, s2, h2, p2, r13', m2⟩ := run_copy L hL s.mem ((L.edata - L.sdata) / 4) s1 p1 r0 r1 r2
    (by omega) (by omega) (by
      intro a
      rw [m1, if_neg (by omega)])
  obtain ⟨s3, h3, p3, m3, q2, q4, q3, q13⟩ := run_middle L s2 p2
  obtain ⟨k, s4, h4, p4, z13, m4⟩ := run_fill L hL s2.mem ((L.ebss - L.sbss) / 4) s3 p3 q4 q3
    (by omega) (by omega) (by omega) (by
      intro a
      rw [m3, if_neg (by omega)])
  refine ⟨6 + (j + (4 + k)), s4, ?_, p4, ?_, ?_⟩
  · rw [steps_add L 6 _ s s1 h1, steps_add L j _ s1 s2 h2, steps_add L 4 _ s2 s3 h3]
    exact h4
  · rw [z13, q13, r13', r13]
  · intro a ha
    unfold startValue
    rw [m4 a, m2 a]
    by_cases hd : L.sdata ≤ a ∧ a < L.edata
    · rw [if_neg (by omega), if_pos ⟨hd.1, hd.2, ha⟩, if_pos hd]
    · by_cases hb : L.sbss ≤ a ∧ a < L.ebss
      · rw [if_pos ⟨hb.1, hb.2, ha⟩, if_neg hd, if_pos hb]
      · rw [if_neg (by omega), if_neg (by omega), if_neg hd, if_neg hb]

theorem align4_mod (n : Nat) : align4 n % 4 = 0 := by unfold align4; omega

/-- **C126.**  The linker's script places every image that fits so that this applies, with the stack
aligned as the processor wants it and at least the reserved kilobyte and a half above the objects. -/
theorem C126_every_image (i : Image) (hi : Fits i) :
    Sound (link i) ∧ (link i).estack % 8 = 0 ∧ (link i).ebss + 0x600 ≤ (link i).estack := by
  obtain ⟨h1, h2⟩ := hi
  have e1 := align4_mod i.flash
  have e2 := align4_mod i.data
  have e3 := align4_mod i.gap
  have e4 := align4_mod i.bss
  refine ⟨?_, ?_, ?_⟩
  · constructor <;> simp only [link] <;> omega
  · simp only [link]
  · simp only [link]
    omega

/-- The code changes nothing in the flash memory, so that a second reset finds the same image. -/
theorem C126_image_kept (i : Image) (hi : Fits i) (m : Nat → Nat) (a : Nat) (ha : a < 0x20000000) :
    startValue (link i) m a = m a := by
  obtain ⟨h1, h2⟩ := hi
  unfold startValue
  rw [if_neg (by simp only [link]; omega), if_neg (by simp only [link]; omega)]

/-- Two initialised words, three zeroed ones, over memory full of rubbish. -/
example :
    let L := link ⟨8, 6, 0, 12⟩
    let m : Nat → Nat := fun a => if a < 0x20000000 then a else 0xDEAD
    (steps L 39 ⟨fun _ => 7, true, 0, m⟩).map (fun t => (t.pc, t.r 13,
      [0x1FFFFFFC, 0x20000000, 0x20000004, 0x20000008, 0x20000010, 0x20000014].map t.mem)) =
    some (20, 0x20080000, [0x1FFFFFFC, 0x08000008, 0x0800000C, 0, 0, 0xDEAD]) := by
  decide +kernel

end Verif.Reset
