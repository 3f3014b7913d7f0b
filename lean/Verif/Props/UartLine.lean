import Verif.Spec.UartLine
import Verif.Props.Clock
import Mathlib.Tactic.Linarith
import Mathlib.Tactic.IntervalCases
import Mathlib.Tactic.Positivity

set_option autoImplicit false

/-!
# C150: bytes on the serial lines are received as sent
-/

namespace Verif.UartLine
open Verif.UartRegs

/-! ## The line -/

theorem find_sent {b : ℚ} {t : ℚ} : ∀ {sent : List (ℚ × UInt8)}, InTurn b sent → ∀ {x : ℚ × UInt8}, x ∈ sent →
    x.1 ≤ t → t < x.1 + 10 * b →
    sent.find? (fun x => decide (x.1 ≤ t ∧ t < x.1 + 10 * b)) = some x
  | [], _, _, hx, _, _ => by cases hx
  | y :: ys, hp, x, hx, h1, h2 => by
    rcases List.mem_cons.mp hx with rfl | hx
    · rw [List.find?_cons_of_pos (by simp [h1, h2])]
    · have := (List.pairwise_cons.mp hp).1 x hx
      rw [List.find?_cons_of_neg (by simp; intro _; linarith)]
      exact find_sent (List.pairwise_cons.mp hp).2 hx h1 h2

theorem level_in {b : ℚ} (hb : 0 < b) {sent : List (ℚ × UInt8)} (hp : InTurn b sent) {x : ℚ × UInt8} (hx : x ∈ sent)
    {t : ℚ} {j : Nat} (hj : j ≤ 9) (h1 : x.1 + j * b ≤ t) (h2 : t < x.1 + (j + 1) * b) :
    level b sent t = (shape x.2).getD j true := by
  have hj' : ((j : ℚ) + 1) ≤ 10 := by exact_mod_cast Nat.succ_le_succ hj
  have h0 : (0 : ℚ) ≤ j * b := by positivity
  unfold level
  rw [find_sent hp hx (by linarith) (by nlinarith)]
  have hf : ⌊(t - x.1) / b⌋ = (j : ℤ) := by
    rw [Int.floor_eq_iff]
    constructor
    · rw [le_div_iff₀ hb]; push_cast; linarith
    · rw [div_lt_iff₀ hb]; push_cast; linarith
  simp only [hf, Int.toNat_natCast]

theorem level_idle {b : ℚ} {sent : List (ℚ × UInt8)} {t : ℚ}
    (h : ∀ x ∈ sent, t < x.1 ∨ x.1 + 9 * b ≤ t) (hb : 0 < b) (hp : InTurn b sent) : level b sent t = true := by
  by_cases hx : ∃ x ∈ sent, x.1 ≤ t ∧ t < x.1 + 10 * b
  · obtain ⟨x, hx, h1, h2⟩ := hx
    have h9 : x.1 + 9 * b ≤ t := by
      rcases h x hx with h | h
      · linarith
      · exact h
    rw [level_in hb hp hx (j := 9) (le_refl _) (by push_cast; exact h9) (by push_cast; linarith)]
    simp [shape, List.range_succ]
  · unfold level
    rw [List.find?_eq_none.mpr (by
      intro x hm
      simp only [decide_eq_true_eq]
      exact fun hc => hx ⟨x, hm, hc⟩)]

theorem byte_of (d : UInt8) : ((List.range 8).map fun k => (d.toNat.testBit k).toNat * 2 ^ k).sum = d.toNat := by
  have h : ∀ n : Fin 256, ((List.range 8).map fun k => (n.val.testBit k).toNat * 2 ^ k).sum = n.val := by decide +kernel
  exact h ⟨d.toNat, d.toNat_lt⟩

/-! ## One byte -/

/-- The samples of a byte: `n` is the first sample after its beginning. -/
theorem one_byte {b : ℚ} (hlo : 154 ≤ 10 * b) (hhi : 9 * b ≤ 151) {sent : List (ℚ × UInt8)} (hp : InTurn b sent)
    {x : ℚ × UInt8} (hx : x ∈ sent) {n : Nat} (h0 : x.1 ≤ n) (h1 : (n : ℚ) < x.1 + 1) {j o : Nat} (hj : j ≤ 9)
    (ho : o = 7 ∨ o = 8 ∨ o = 9 ∨ (j = 0 ∧ o ≤ 9)) :
    level b sent ((n + 16 * j + o : Nat) : ℚ) = (shape x.2).getD j true := by
  have hb : 0 < b := by linarith
  have ho9 : o ≤ 9 := by omega
  have ho9' : (o : ℚ) ≤ 9 := by exact_mod_cast ho9
  refine level_in hb hp hx hj ?_ ?_
  · push_cast
    rcases Nat.eq_zero_or_pos j with rfl | hpos
    · have : (0 : ℚ) ≤ o := by positivity
      push_cast; linarith
    · have ho7 : (7 : ℚ) ≤ o := by
        have : 7 ≤ o := by omega
        exact_mod_cast this
      have hj' : (j : ℚ) ≤ 9 := by exact_mod_cast hj
      -- j (b - 16) ≤ 7
      have : (j : ℚ) * b ≤ 16 * j + 7 := by
        by_cases hc : b ≤ 16
        · nlinarith
        · nlinarith
      linarith
  · push_cast
    have hj' : (j : ℚ) ≤ 9 := by exact_mod_cast hj
    have hj0 : (0 : ℚ) ≤ j := by positivity
    have : 16 * (j : ℚ) + 10 ≤ (j + 1) * b := by nlinarith
    linarith

/-! ## C150 -/

theorem vote_eq {sig : Nat → Bool} {n : Nat} {v : Bool} (h7 : sig (n + 7) = v) (h8 : sig (n + 8) = v)
    (h9 : sig (n + 9) = v) : vote eightN1 sig n = v := by
  simp only [vote, eightN1, Nat.reduceDiv, Bool.false_eq_true, if_false]
  rw [show n + 8 - 1 = n + 7 by omega, show n + 8 + 1 = n + 9 by omega, h7, h8, h9]
  cases v <;> rfl

theorem hear_idle {sig : Nat → Bool} : ∀ (k fuel n : Nat), (∀ m, n ≤ m → m < n + k → sig m = true) →
    hear eightN1 sig (fuel + k) n = hear eightN1 sig fuel (n + k)
  | 0, fuel, n, _ => rfl
  | k + 1, fuel, n, h => by
    have h0 : starts eightN1 sig n = false := by
      simp [starts, h n (le_refl _) (by omega)]
    show (if starts eightN1 sig n = true then _ else hear eightN1 sig (fuel + k) (n + 1)) = _
    rw [h0]
    simp only [Bool.false_eq_true, if_false]
    rw [hear_idle k fuel (n + 1) (fun m h1 h2 => h m (by omega) (by omega))]
    congr 1; omega

theorem hear_all_idle {sig : Nat → Bool} : ∀ (fuel n : Nat), (∀ m, n ≤ m → sig m = true) →
    hear eightN1 sig fuel n = []
  | 0, _, _ => rfl
  | fuel + 1, n, h => by
    have h0 : starts eightN1 sig n = false := by simp [starts, h n (le_refl _)]
    show (if starts eightN1 sig n = true then _ else hear eightN1 sig fuel (n + 1)) = _
    rw [h0]
    simp only [Bool.false_eq_true, if_false]
    exact hear_all_idle fuel (n + 1) (fun m hm => h m (by omega))

theorem heard_from {b : ℚ} (hlo : 154 ≤ 10 * b) (hhi : 9 * b ≤ 151) : ∀ (later before : List (ℚ × UInt8)) (p : Nat),
    InTurn b (before ++ later) → (∀ x ∈ later, 3 ≤ x.1) → (∀ x ∈ before, x.1 + 9 * b ≤ p) →
    (∀ x ∈ later, (p : ℚ) < x.1 + 1) → 
    ∃ N, ∀ fuel, N ≤ fuel → hear eightN1 (fun k => level b (before ++ later) k) fuel p = later.map (fun x => some x.2)
  | [], before, p, hp, _, hbef, _ => by
    refine ⟨0, fun fuel _ => ?_⟩
    refine hear_all_idle fuel p (fun m hm => level_idle ?_ (by linarith) hp)
    intro x hx
    rw [List.append_nil] at hx
    have : (p : ℚ) ≤ m := by exact_mod_cast hm
    exact .inr (by linarith [hbef x hx])
  | x :: later, before, p, hp, h3, hbef, hlat => by
    have hb : 0 < b := by linarith
    have hx : x ∈ before ++ x :: later := by simp
    have hx3 := h3 x (by simp)
    -- first sample of the start bit
    obtain ⟨n, hn⟩ : ∃ n : Nat, (n : ℤ) = ⌈x.1⌉ := ⟨⌈x.1⌉.toNat, Int.toNat_of_nonneg (Int.ceil_nonneg (by linarith))⟩
    have hn0 : x.1 ≤ n := by have := Int.le_ceil x.1; rw [← hn] at this; exact_mod_cast this
    have hn1 : (n : ℚ) < x.1 + 1 := by have := Int.ceil_lt_add_one x.1; rw [← hn] at this; exact_mod_cast this
    have hn3 : 3 ≤ n := by
      have : (3 : ℚ) ≤ n := le_trans hx3 hn0
      exact_mod_cast this
    have hpn : p ≤ n := by
      have : (p : ℚ) < n + 1 := by linarith [hlat x (by simp)]
      have : p < n + 1 := by exact_mod_cast this
      omega
    have hother : ∀ y ∈ later, x.1 + 10 * b ≤ y.1 := by
      have := (List.pairwise_append.mp hp).2.1
      exact (List.pairwise_cons.mp this).1
    have hprev : ∀ y ∈ before, y.1 + 10 * b ≤ x.1 := fun y hy =>
      (List.pairwise_append.mp hp).2.2 y hy x (by simp)
    set sig : Nat → Bool := fun k => level b (before ++ x :: later) (k : ℚ) with hsig
    have hidle : ∀ m : Nat, m < n → (∀ y ∈ before, y.1 + 9 * b ≤ m) → sig m = true := by
      intro m hm hy
      refine level_idle ?_ hb hp
      have hm' : (m : ℚ) < x.1 := by
        have : (m : ℚ) + 1 ≤ n := by exact_mod_cast hm
        linarith
      intro y hmem
      rcases List.mem_append.mp hmem with h | h
      · exact .inr (hy y h)
      · rcases List.mem_cons.mp h with rfl | h
        · exact .inl hm'
        · exact .inl (by linarith [hother y h])
    have hhigh : ∀ m : Nat, m < n → n ≤ m + 3 → sig m = true := by
      intro m hm h3
      refine hidle m hm fun y hy => ?_
      have : (n : ℚ) ≤ m + 3 := by exact_mod_cast h3
      linarith [hprev y hy]
    have hs : ∀ {j o : Nat}, j ≤ 9 → (o = 7 ∨ o = 8 ∨ o = 9 ∨ (j = 0 ∧ o ≤ 9)) →
        sig (n + 16 * j + o) = (shape x.2).getD j true := fun hj ho => one_byte hlo hhi hp hx hn0 hn1 hj ho
    have hvote : ∀ j, j ≤ 9 → vote eightN1 sig (n + 16 * j) = (shape x.2).getD j true := fun j hj =>
      vote_eq (hs hj (by simp)) (hs hj (by simp)) (hs hj (by simp))
    have h0 : ∀ o, o ≤ 9 → sig (n + o) = false := by
      intro o ho
      have := hs (j := 0) (o := o) (by omega) (by simp [ho])
      simpa [shape] using this
    have hstart : starts eightN1 sig n = true := by
      have v0 : vote eightN1 sig n = false := by simpa [shape] using hvote 0 (by omega)
      have s0 : sig n = false := h0 0 (by omega)
      simp [starts, hn3, hhigh (n - 3) (by omega) (by omega), hhigh (n - 2) (by omega) (by omega),
        hhigh (n - 1) (by omega) (by omega), s0, h0 2 (by omega), h0 4 (by omega), h0 6 (by omega), v0, majority]
    have hstop : vote eightN1 sig (n + 16 * 9) = true := by
      rw [hvote 9 (by omega)]; simp [shape, List.range_succ]
    have hword : word eightN1 sig n = x.2.toNat := by
      rw [← byte_of x.2]
      unfold word
      congr 1
      refine List.map_congr_left fun k hk => ?_
      have hk8 : k < 8 := by simpa [eightN1] using hk
      have := hvote (k + 1) (by omega)
      simp only [eightN1, Bool.false_eq_true, if_false] at this ⊢
      rw [this]
      congr 2
      interval_cases k <;> simp [shape, List.range_succ]
    -- the rest
    have hp' : InTurn b ((before ++ [x]) ++ later) := by simpa using hp
    obtain ⟨N, hN⟩ := heard_from hlo hhi later (before ++ [x]) (n + 154) hp' (fun y hy => h3 y (by simp [hy]))
      (by
        intro y hy
        push_cast
        rcases List.mem_append.mp hy with hy | hy
        · linarith [hprev y hy]
        · simp only [List.mem_singleton] at hy
          subst hy
          linarith)
      (by
        intro y hy
        push_cast
        linarith [hother y hy])
    refine ⟨N + 1 + (n - p), fun fuel hf => ?_⟩
    obtain ⟨g, rfl⟩ : ∃ g, fuel = (g + 1) + (n - p) := ⟨fuel - 1 - (n - p), by omega⟩
    rw [hear_idle (n - p) (g + 1) p (fun m h1 h2 => hidle m (by omega) (fun y hy => by
      have : (p : ℚ) ≤ m := by exact_mod_cast h1
      linarith [hbef y hy]))]
    rw [show p + (n - p) = n by omega]
    show (if starts eightN1 sig n = true then _ else _) = _
    rw [if_pos hstart]
    have hl : (before ++ [x]) ++ later = before ++ x :: later := by simp
    rw [hl] at hN
    simp only [List.map_cons]
    congr 1
    · have e1 : eightN1.over * (eightN1.bits + 1) = 16 * 9 := rfl
      rw [e1, if_pos hstop, hword]
      simp [eightN1]
    · exact hN g (by omega)

/-- **C150, the line.** Let bytes be sent one after the other, with pauses of any length between them or none, in eight
bits without parity, and received with the same settings by a port that takes sixteen samples per bit; let the sender's
bits be at most 3.75 % shorter and at most 4.86 % longer than the receiver's, and its bits lie anywhere relative to the
samples. Then the receiver hears exactly the bytes sent, in order, none of them without its stop bit. Times are in
sample periods of the receiver; the first byte comes after the line was high for three of them. -/
theorem C150_line (b : ℚ) (hlo : 16 * (1 - 375/10000) ≤ b) (hhi : b ≤ 16 * (1 + 486/10000))
    (sent : List (ℚ × UInt8)) (hturn : InTurn b sent) (hfirst : ∀ x ∈ sent, 3 ≤ x.1) :
    ∃ N, ∀ steps, N ≤ steps → hear eightN1 (fun n => level b sent n) steps 0 = sent.map (fun x => some x.2) := by
  have := heard_from (b := b) (by linarith) (by linarith) sent [] 0 (by simpa using hturn) hfirst (by simp)
    (fun x hx => by have := hfirst x hx; push_cast; linarith)
  simpa using this

/-- The bits the driver leaves as they are have their reset values: no mute mode, nothing swapped or inverted, least
significant bit first. -/
def Untouched (r : Regs) : Prop :=
  r.cr1.getLsbD 13 = false ∧ r.cr2.getLsbD 15 = false ∧ r.cr2.getLsbD 16 = false ∧ r.cr2.getLsbD 17 = false ∧
  r.cr2.getLsbD 18 = false ∧ r.cr2.getLsbD 19 = false

theorem init_format {r r' : Regs} {i : Init} {pclk : Nat} (hu : Untouched r)
    (hi : i.wordLength = 0#32 ∧ i.stopBits = 0#32 ∧ i.parity = 0#32 ∧ i.mode = 0xC#32 ∧ i.flow = 0#32 ∧
      i.over = 0#32 ∧ i.oneBit = 0#32)
    (h : uartInit r i pclk = some r') :
    Working r' ∧ format r' = eightN1 ∧ Clock.brr pclk i.baud = some r'.brr := by
  obtain ⟨h1, h2, h3, h4, h5, h6, h7⟩ := hi
  simp only [Untouched, BitVec.getLsbD_eq_getElem, Nat.reduceLT] at hu
  obtain ⟨u1, u2, u3, u4, u5, u6⟩ := hu
  unfold uartInit setConfig at h
  rw [h1, h2, h3, h4, h5, h6, h7] at h
  rw [if_neg (by decide)] at h
  cases hb : Clock.brr pclk i.baud with
  | none => rw [hb] at h; cases h
  | some d =>
    rw [hb] at h
    simp only [Option.some.injEq] at h
    subst h
    refine ⟨?_, ?_, rfl⟩
    · refine ⟨?_, ?_, ?_, ?_, ?_, ?_, ?_, ?_, ?_, ?_, ?_, ?_⟩ <;>
        simp [modifyReg, cr1Fields, cr3Fields, u1, u2]
    · simp [format, modifyReg, cr1Fields, cr3Fields, eightN1, u3, u4, u5, u6]

/-- **C150, the settings.** Whatever was in the control registers before (the bits the driver never writes having their
reset values), after start-up the three ports are on, send and receive, and use eight bits without parity, one stop bit,
least significant bit first, sixteen samples per bit, with 938, 469 and 11250 clock cycles per bit. -/
theorem C150_settings (r : Regs) (hu : Untouched r) :
    (∃ r1, uartInit r usart1 clock1 = some r1 ∧ Working r1 ∧ format r1 = eightN1 ∧ r1.brr = 938) ∧
    (∃ r3, uartInit r usart3 clock3 = some r3 ∧ Working r3 ∧ format r3 = eightN1 ∧ r3.brr = 469) ∧
    (∃ r6, uartInit r usart6 clock6 = some r6 ∧ Working r6 ∧ format r6 = eightN1 ∧ r6.brr = 11250) := by
  obtain ⟨e1, -, e3, -, e6, -⟩ := Clock.C118_uart_shipped
  have key : ∀ (i : Init) (p d : Nat), (i.wordLength = 0#32 ∧ i.stopBits = 0#32 ∧ i.parity = 0#32 ∧ i.mode = 0xC#32 ∧
      i.flow = 0#32 ∧ i.over = 0#32 ∧ i.oneBit = 0#32) → Clock.brr p i.baud = some d →
      ∃ r', uartInit r i p = some r' ∧ Working r' ∧ format r' = eightN1 ∧ r'.brr = d := by
    intro i p d hi hd
    cases h : uartInit r i p with
    | none =>
      exfalso
      unfold uartInit setConfig at h
      rw [hi.2.2.2.2.2.1, if_neg (by decide), hd] at h
      cases h
    | some r' =>
      obtain ⟨w, f, hb⟩ := init_format hu hi h
      rw [hd] at hb
      exact ⟨r', rfl, w, f, (Option.some.inj hb).symm⟩
  exact ⟨key _ _ _ ⟨rfl, rfl, rfl, rfl, rfl, rfl, rfl⟩ e1, key _ _ _ ⟨rfl, rfl, rfl, rfl, rfl, rfl, rfl⟩ e3,
    key _ _ _ ⟨rfl, rfl, rfl, rfl, rfl, rfl, rfl⟩ e6⟩

/-! ## In seconds -/

theorem find_scaled (β s t0 t : ℚ) (hs : 0 < s) : ∀ sent : List (ℚ × UInt8),
    (sent.map fun x => ((x.1 - t0) / s, x.2)).find? (fun x => decide (x.1 ≤ t ∧ t < x.1 + 10 * (β / s))) =
    (sent.find? (fun x => decide (x.1 ≤ t0 + t * s ∧ t0 + t * s < x.1 + 10 * β))).map
      (fun x => ((x.1 - t0) / s, x.2))
  | [] => rfl
  | y :: ys => by
    have e : (decide ((y.1 - t0) / s ≤ t ∧ t < (y.1 - t0) / s + 10 * (β / s))) =
        decide (y.1 ≤ t0 + t * s ∧ t0 + t * s < y.1 + 10 * β) := by
      rw [decide_eq_decide]
      have e1 : (y.1 - t0) / s ≤ t ↔ y.1 ≤ t0 + t * s := by
        rw [div_le_iff₀ hs]; constructor <;> intro h <;> linarith
      have e2 : t < (y.1 - t0) / s + 10 * (β / s) ↔ t0 + t * s < y.1 + 10 * β := by
        rw [show (y.1 - t0) / s + 10 * (β / s) = (y.1 - t0 + 10 * β) / s by field_simp, lt_div_iff₀ hs]
        constructor <;> intro h <;> linarith
      rw [e1, e2]
    simp only [List.map_cons, List.find?_cons, e]
    cases decide (y.1 ≤ t0 + t * s ∧ t0 + t * s < y.1 + 10 * β) with
    | true => rfl
    | false => exact find_scaled β s t0 t hs ys

theorem level_scaled (β s t0 t : ℚ) (hs : 0 < s) (sent : List (ℚ × UInt8)) :
    level (β / s) (sent.map fun x => ((x.1 - t0) / s, x.2)) t = level β sent (t0 + t * s) := by
  unfold level
  rw [find_scaled β s t0 t hs]
  cases sent.find? (fun x => decide (x.1 ≤ t0 + t * s ∧ t0 + t * s < x.1 + 10 * β)) with
  | none => rfl
  | some x =>
    simp only [Option.map_some]
    have : (t - (x.1 - t0) / s) / (β / s) = (t0 + t * s - x.1) / β := by
      have hs' : s ≠ 0 := ne_of_gt hs
      rw [div_div_eq_mul_div]
      congr 1
      field_simp
      ring
    rw [this]

/-- What a receiver with the given format, whose bits last `ρ` seconds, hears of bytes sent with bits of `β` seconds,
when its first sample is taken at `t0`. -/
def heard (f : Format) (ρ β t0 : ℚ) (sent : List (ℚ × UInt8)) (steps : Nat) : List (Option UInt8) :=
  hear f (fun n => level β sent (t0 + n * (ρ / f.over))) steps 0

/-- A byte does not begin before the receiver has been listening for a fifth of a bit. -/
def Listening (ρ t0 : ℚ) (sent : List (ℚ × UInt8)) : Prop := ∀ x ∈ sent, t0 + ρ / 5 ≤ x.1

/-- The bytes sent, and nothing else, are heard in the end. -/
def Arrive (f : Format) (ρ β t0 : ℚ) (sent : List (ℚ × UInt8)) : Prop :=
  ∃ N, ∀ steps, N ≤ steps → heard f ρ β t0 sent steps = sent.map (fun x => some x.2)

theorem arrive {ρ β : ℚ} (hρ : 0 < ρ) (hlo : ρ * (1 - 375/10000) ≤ β) (hhi : β ≤ ρ * (1 + 486/10000)) (t0 : ℚ)
    (sent : List (ℚ × UInt8)) (hturn : InTurn β sent) (hl : Listening ρ t0 sent) : Arrive eightN1 ρ β t0 sent := by
  have hs : 0 < ρ / 16 := by positivity
  have e : β / (ρ / 16) = 16 * (β / ρ) := by field_simp
  obtain ⟨N, hN⟩ := C150_line (β / (ρ / 16)) (by rw [le_div_iff₀ hs]; linarith) (by rw [div_le_iff₀ hs]; linarith)
    (sent.map fun x => ((x.1 - t0) / (ρ / 16), x.2))
    (by
      unfold InTurn
      rw [List.pairwise_map]
      refine hturn.imp fun {x y} h => ?_
      dsimp only
      rw [show (x.1 - t0) / (ρ / 16) + 10 * (β / (ρ / 16)) = (x.1 - t0 + 10 * β) / (ρ / 16) by field_simp]
      exact div_le_div_of_nonneg_right (by linarith) hs.le)
    (by
      intro x hx
      obtain ⟨y, hy, rfl⟩ := List.mem_map.mp hx
      have := hl y hy
      dsimp only
      rw [le_div_iff₀ hs]
      linarith)
  refine ⟨N, fun steps h => ?_⟩
  have := hN steps h
  rw [List.map_map] at this
  unfold heard
  rw [show (sent.map fun x => some x.2) = sent.map ((fun x : ℚ × UInt8 => some x.2) ∘ fun x => ((x.1 - t0) / (ρ / 16), x.2))
    from rfl, ← this]
  congr 1
  funext n
  rw [level_scaled β (ρ / 16) t0 n hs sent]
  rfl

/-- **C150.** A crystal within 0.1 % of 16 MHz, and a PC or GPS receiver whose rate is within 3.5 % of the rate the PC tools
set (115200 Bd) or of 9600 Bd: every sequence of bytes, however they follow each other, arrives at either end of each of the three serial
lines exactly as it was sent. -/
theorem C150_links (r : Regs) (hu : Untouched r) (f : ℚ) (hf : 16000000 * (1 - 1/1000) ≤ f)
    (hf' : f ≤ 16000000 * (1 + 1/1000)) (rate : ℚ) (sent : List (ℚ × UInt8)) (t0 : ℚ) :
    (∀ r1, uartInit r usart1 clock1 = some r1 → pcBaud * (1 - 35/1000) ≤ rate → rate ≤ pcBaud * (1 + 35/1000) →
      (InTurn (1 / rate) sent → Listening (bitTime r1 (apb2 f)) t0 sent →
        Arrive (format r1) (bitTime r1 (apb2 f)) (1 / rate) t0 sent) ∧
      (InTurn (bitTime r1 (apb2 f)) sent → Listening (1 / rate) t0 sent →
        Arrive eightN1 (1 / rate) (bitTime r1 (apb2 f)) t0 sent)) ∧
    (∀ r3, uartInit r usart3 clock3 = some r3 → pcBaud * (1 - 35/1000) ≤ rate → rate ≤ pcBaud * (1 + 35/1000) →
      (InTurn (1 / rate) sent → Listening (bitTime r3 (apb1 f)) t0 sent →
        Arrive (format r3) (bitTime r3 (apb1 f)) (1 / rate) t0 sent) ∧
      (InTurn (bitTime r3 (apb1 f)) sent → Listening (1 / rate) t0 sent →
        Arrive eightN1 (1 / rate) (bitTime r3 (apb1 f)) t0 sent)) ∧
    (∀ r6, uartInit r usart6 clock6 = some r6 → 9600 * (1 - 35/1000) ≤ rate → rate ≤ 9600 * (1 + 35/1000) →
      (InTurn (1 / rate) sent → Listening (bitTime r6 (apb2 f)) t0 sent →
        Arrive (format r6) (bitTime r6 (apb2 f)) (1 / rate) t0 sent) ∧
      (InTurn (bitTime r6 (apb2 f)) sent → Listening (1 / rate) t0 sent →
        Arrive eightN1 (1 / rate) (bitTime r6 (apb2 f)) t0 sent)) := by
  obtain ⟨⟨s1, i1, -, g1, b1⟩, ⟨s3, i3, -, g3, b3⟩, ⟨s6, i6, -, g6, b6⟩⟩ := C150_settings r hu
  have p2 : apb2 f = f * (27 / 4) := by
    simp only [apb2, Clock.pclk2, Clock.apb2_val, Clock.hclk_val]; push_cast; ring
  have p1 : apb1 f = f * (27 / 8) := by
    simp only [apb1, Clock.pclk1, Clock.apb1_val, Clock.hclk_val]; push_cast; ring
  have fp : 0 < f := by linarith
  have core : ∀ (d : Nat) (p nom : ℚ), 0 < p → 0 < nom → nom * (1 - 35/1000) ≤ rate → rate ≤ nom * (1 + 35/1000) →
      p * (1 - 1/1000) ≤ d * nom → d * nom ≤ p * (1 + 2/1000) → 0 < (d : ℚ) →
      ((d / p) * (1 - 375/10000) ≤ 1 / rate ∧ 1 / rate ≤ (d / p) * (1 + 486/10000)) ∧
      ((1 / rate) * (1 - 375/10000) ≤ d / p ∧ d / p ≤ (1 / rate) * (1 + 486/10000)) := by
    intro d p nom hp hn h1 h2 h3 h4 hd
    have hr : 0 < rate := by linarith
    -- `d * rate` is close to `p`
    have lo : p * (964/1000) ≤ d * rate := by nlinarith
    have hi : d * rate ≤ p * (10372/10000) := by nlinarith
    refine ⟨⟨?_, ?_⟩, ?_, ?_⟩
    · rw [le_div_iff₀ hr, div_mul_eq_mul_div, div_mul_eq_mul_div, div_le_iff₀ hp]; linarith
    · rw [div_le_iff₀ hr, div_mul_eq_mul_div, div_mul_eq_mul_div, le_div_iff₀ hp]; linarith
    · rw [le_div_iff₀ hp, div_mul_eq_mul_div, div_mul_eq_mul_div, div_le_iff₀ hr]; linarith
    · rw [div_le_iff₀ hp, div_mul_eq_mul_div, div_mul_eq_mul_div, le_div_iff₀ hr]; linarith
  have both : ∀ (q : Regs) (p nom : ℚ), format q = eightN1 → 0 < p → 0 < nom → nom * (1 - 35/1000) ≤ rate →
      rate ≤ nom * (1 + 35/1000) → p * (1 - 1/1000) ≤ q.brr * nom → q.brr * nom ≤ p * (1 + 2/1000) →
      0 < (q.brr : ℚ) →
      (InTurn (1 / rate) sent → Listening (bitTime q p) t0 sent → Arrive (format q) (bitTime q p) (1 / rate) t0 sent) ∧
      (InTurn (bitTime q p) sent → Listening (1 / rate) t0 sent → Arrive eightN1 (1 / rate) (bitTime q p) t0 sent) := by
    intro q p nom hq hp hn h1 h2 h3 h4 hd
    obtain ⟨⟨a1, a2⟩, a3, a4⟩ := core q.brr p nom hp hn h1 h2 h3 h4 hd
    have hr : 0 < rate := by linarith
    rw [hq]
    exact ⟨fun ht hl => arrive (div_pos hd hp) a1 a2 t0 sent ht hl,
      fun ht hl => arrive (one_div_pos.mpr hr) a3 a4 t0 sent ht hl⟩
  have e : (pcBaud : ℚ) = 115200 := by norm_num [pcBaud]
  rw [e]
  refine ⟨fun q hq h1 h2 => ?_, fun q hq h1 h2 => ?_, fun q hq h1 h2 => ?_⟩
  · rw [i1] at hq; cases hq
    exact both _ _ 115200 g1 (by rw [p2]; positivity) (by norm_num) h1 h2 (by rw [p2, b1]; push_cast; linarith)
      (by rw [p2, b1]; push_cast; linarith) (by rw [b1]; norm_num)
  · rw [i3] at hq; cases hq
    exact both _ _ 115200 g3 (by rw [p1]; positivity) (by norm_num) h1 h2 (by rw [p1, b3]; push_cast; linarith)
      (by rw [p1, b3]; push_cast; linarith) (by rw [b3]; norm_num)
  · rw [i6] at hq; cases hq
    exact both _ _ 9600 g6 (by rw [p2]; positivity) (by norm_num) h1 h2 (by rw [p2, b6]; push_cast; linarith)
      (by rw [p2, b6]; push_cast; linarith) (by rw [b6]; norm_num)

/-- The registers after reset qualify. -/
example : Untouched reset := by unfold Untouched reset; decide

/-- Two bytes back to back, the sender 2 % slow and starting between two samples, are heard. -/
example : hear eightN1 (fun n => level (1632/100) [(37/10, 0xA5), (37/10 + 1632/10, 0x0F)] n) 100 0 =
    [some 0xA5, some 0x0F] := by decide +kernel

/-- With bits 7 % too long the byte is not heard as sent: the stop bit is missed. -/
example : hear eightN1 (fun n => level (1712/100) [(37/10, 0x25)] n) 60 0 ≠ [some 0x25] := by decide +kernel

end Verif.UartLine
