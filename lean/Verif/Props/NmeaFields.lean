import Verif.Props.Nmea

set_option autoImplicit false

/-!
# C40: what an accepted payload says
-/

namespace Verif.Nmea

open NmeaSpec MsgFrame

theorem tok_split (d : Nat → UInt8) (left pos : Nat) (acc : List UInt8) (t : Tok) (h : nextTok d left pos acc = .ok t) :
    ∃ w, t.chars = acc ++ w ∧ 44 ∉ w ∧
      (slice d pos left = w ++ 44 :: slice d t.pos t.left ∨ slice d pos left = w ∧ t.left = 0) := by
  induction left generalizing pos acc with
  | zero =>
    unfold nextTok at h
    cases hr : rd d pos with
    | error e => rw [hr] at h; cases h
    | ok c =>
      rw [hr] at h
      dsimp only at h
      split_ifs at h
      injection h with h
      subst h
      exact ⟨[], by simp, by simp, Or.inr ⟨rfl, rfl⟩⟩
  | succ left ih =>
    unfold nextTok at h
    have hs : slice d pos (left + 1) = d pos :: slice d (pos + 1) left := by
      simp [slice, List.range'_succ]
    cases hr : rd d pos with
    | error e => rw [hr] at h; cases h
    | ok c =>
      have hc : c = d pos := by
        unfold rd at hr
        split_ifs at hr
        injection hr with hr
        exact hr.symm
      rw [hr] at h
      dsimp only at h
      split_ifs at h with h1 h2 h3
      · injection h with h
        subst h
        refine ⟨[], by simp, by simp, Or.inl ?_⟩
        rw [hs, ← hc, h1]
        rfl
      · obtain ⟨w, w1, w2, w3⟩ := ih (pos + 1) (acc ++ [c]) h
        refine ⟨c :: w, by rw [w1]; simp, ?_, ?_⟩
        · intro hm
          rcases List.mem_cons.1 hm with hm | hm
          · exact h1 hm.symm
          · exact w2 hm
        · rw [hs, ← hc]
          rcases w3 with w3 | ⟨w3, w4⟩
          · exact Or.inl (by rw [w3]; rfl)
          · exact Or.inr ⟨by rw [w3], w4⟩

/-- The fields' effects one after the other. -/
def through : List Handler → List (List UInt8) → Gga → Option Gga
  | [], [], g => some g
  | h :: hs, t :: ts, g =>
    match h t g with
    | (true, g') => through hs ts g'
    | (false, _) => none
  | _, _, _ => none

theorem fields_split (d : Nat → UInt8) (hs : List Handler) (left pos : Nat) (g g' : Gga)
    (h : runFields d hs left pos g = .ok (true, g')) :
    ∃ toks rest, toks.length = hs.length ∧ (∀ t ∈ toks, t ≠ [] ∧ 44 ∉ t) ∧ through hs toks g = some g' ∧
      (hs ≠ [] → slice d pos left = join toks ++ rest ∧ (rest = [] ∨ rest.head? = some 44)) := by
  induction hs generalizing left pos g with
  | nil =>
    unfold runFields at h
    cases hn : nextTok d left pos [] with
    | error e => rw [hn] at h; cases h
    | ok t =>
      rw [hn] at h
      injection h with h
      injection h with _ h
      subst h
      exact ⟨[], [], rfl, by simp, rfl, fun h => absurd rfl h⟩
  | cons f hs ih =>
    unfold runFields at h
    cases hn : nextTok d left pos [] with
    | error e => rw [hn] at h; cases h
    | ok t =>
      rw [hn] at h
      dsimp only at h
      by_cases h1 : t.chars.length + 1 < 2
      · rw [if_pos h1] at h
        simp at h
      rw [if_neg h1] at h
      obtain ⟨w, w1, w2, w3⟩ := tok_split d left pos [] t hn
      rw [List.nil_append] at w1
      have hne : t.chars ≠ [] := by
        intro e
        rw [e] at h1
        exact h1 (by decide)
      rcases hf : f t.chars g with ⟨b, g1⟩
      rw [hf] at h
      cases b with
      | false => simp at h
      | true =>
        dsimp only at h
        obtain ⟨toks, rest, k1, k2, k3, k4⟩ := ih t.left t.pos g1 h
        have hall : ∀ x ∈ t.chars :: toks, x ≠ [] ∧ 44 ∉ x := by
          intro x hx
          rcases List.mem_cons.1 hx with rfl | hx
          · exact ⟨hne, by rw [w1]; exact w2⟩
          · exact k2 x hx
        have hth : through (f :: hs) (t.chars :: toks) g = some g' := by
          simp only [through, hf, k3]
        cases hs with
        | nil =>
          have : toks = [] := List.length_eq_zero_iff.1 k1
          subst this
          rcases w3 with w3 | ⟨w3, -⟩
          · exact ⟨[t.chars], 44 :: slice d t.pos t.left, rfl, hall, hth, fun _ =>
              ⟨by rw [w3, ← w1]; rfl, Or.inr rfl⟩⟩
          · exact ⟨[t.chars], [], rfl, hall, hth, fun _ => ⟨by rw [w3, ← w1]; simp [join], Or.inl rfl⟩⟩
        | cons f2 hs =>
          obtain ⟨k5, k6⟩ := k4 (by simp)
          cases toks with
          | nil => simp at k1
          | cons u us =>
            rcases w3 with w3 | ⟨w3, w4⟩
            · refine ⟨t.chars :: u :: us, rest, by simpa using k1, hall, hth, fun _ => ⟨?_, k6⟩⟩
              rw [w3, k5, ← w1]
              simp [join]
            · have hz : slice d t.pos t.left = [] := by rw [w4]; rfl
              rw [hz] at k5
              have hu := (k2 u List.mem_cons_self).1
              have : join (u :: us) = [] := by
                cases hj : join (u :: us) with
                | nil => rfl
                | cons a b => rw [hj] at k5; simp at k5
              cases us with
              | nil => exact absurd this hu
              | cons v vs =>
                simp [join] at this

/-- **C40, the payload.** A payload is accepted only if its first twelve fields, separated by commas, are non-empty and
say what a GPGGA sentence must: a time, positions of at most ten characters, N or S, E or W, a digit, a number; and the
output then has exactly these values. -/
theorem C40_accepted (d : Nat → UInt8) (left pos : Nat) (g g' : Gga) (hl : g.lat.length = 11 ∧ g.lon.length = 11)
    (h : runFields d handlers left pos g = .ok (true, g')) :
    ∃ time lat ns lon ew fix sats : List UInt8, ∃ unused : List (List UInt8), ∃ rest,
      unused.length = 5 ∧ slice d pos left = join ([time, lat, ns, lon, ew, fix, sats] ++ unused) ++ rest ∧
      (rest = [] ∨ rest.head? = some 44) ∧
      (∀ t ∈ [time, lat, ns, lon, ew, fix, sats] ++ unused, t ≠ [] ∧ 44 ∉ t) ∧
      ((∀ c ∈ time, c ≠ 0) → timeOf time = some g'.time.val) ∧
      (lat.length ≤ 10 ∧ cstr g'.lat = cstr lat) ∧ (lon.length ≤ 10 ∧ cstr g'.lon = cstr lon) ∧
      (ns.head? = some g'.ns ∧ (g'.ns = 78 ∨ g'.ns = 83)) ∧ (ew.head? = some g'.ew ∧ (g'.ew = 69 ∨ g'.ew = 87)) ∧
      (∃ c, fix.head? = some c ∧ IsDigit c ∧ g'.fix.toNat = dig c) ∧
      ((∀ c ∈ sats, IsDigit c) ∧ g'.sats.toNat = natVal sats % 256) := by
  obtain ⟨toks, rest, k1, k2, k3, k4⟩ := fields_split d handlers left pos g g' h
  obtain ⟨k5, k6⟩ := k4 (by simp [handlers])
  match toks, k1 with
  | [time, lat, ns, lon, ew, fix, sats, u1, u2, u3, u4, u5], _ =>
    refine ⟨time, lat, ns, lon, ew, fix, sats, [u1, u2, u3, u4, u5], rest, rfl, k5, k6, k2, ?_⟩
    have hcons : ∀ t ∈ [time, lat, ns, lon, ew, fix, sats, u1, u2, u3, u4, u5], t.head? = some (t.getD 0 0) := by
      intro t ht
      have := (k2 t ht).1
      cases t with
      | nil => exact absurd rfl this
      | cons a b => rfl
    have hns := hcons ns (by simp)
    have hew := hcons ew (by simp)
    have hfix := hcons fix (by simp)
    simp only [handlers, through, hTime, hLat, hNs, hLon, hEw, hFix, hSats, hSkip] at k3
    cases ht : utcTime (fun i => time.getD i 0) with
    | none => rw [ht] at k3; simp at k3
    | some tv =>
    rw [ht] at k3
    dsimp only at k3
    by_cases c1 : 11 < lat.length + 1
    · rw [if_pos c1] at k3; simp at k3
    rw [if_neg c1] at k3
    dsimp only at k3
    by_cases c2 : ns.getD 0 0 ≠ 0x4E ∧ ns.getD 0 0 ≠ 0x53
    · rw [if_pos c2] at k3; simp at k3
    rw [if_neg c2] at k3
    dsimp only at k3
    by_cases c3 : 11 < lon.length + 1
    · rw [if_pos c3] at k3; simp at k3
    rw [if_neg c3] at k3
    dsimp only at k3
    by_cases c4 : ew.getD 0 0 ≠ 0x45 ∧ ew.getD 0 0 ≠ 0x57
    · rw [if_pos c4] at k3; simp at k3
    rw [if_neg c4] at k3
    dsimp only at k3
    cases hx : charToUInt8Dec (fix.getD 0 0) with
    | none => rw [hx] at k3; simp at k3
    | some fv =>
    rw [hx] at k3
    dsimp only at k3
    cases hy : (strToUInt8Dec sats).1 with
    | false => rw [hy] at k3; simp at k3
    | true =>
    rw [hy] at k3
    dsimp only at k3
    injection k3 with k3
    subst k3
    have hlat := (C40_position lat g hl).2.2 (by omega)
    have hlon := (C40_position lon g hl).2.2 (by omega)
    have hd := (C40_decimal_digit (fix.getD 0 0)).1
    rw [hx] at hd
    have hsat := C40_decimal_number sats
    have hsd := hsat.1.1 hy
    refine ⟨?_, ⟨by omega, ?_⟩, ⟨by omega, ?_⟩, ⟨hns, ?_⟩, ⟨hew, ?_⟩, ⟨_, hfix, ?_⟩, hsd, hsat.2 hsd⟩
    · intro hz
      have := C40_time time hz
      rw [ht] at this
      exact this.symm
    · have := hlat.1.2.2
      unfold hLat at this
      rw [if_neg c1] at this
      exact this
    · have := hlon.2.2.2
      unfold hLon at this
      rw [if_neg c3] at this
      exact this
    · by_contra hc
      exact c2 ⟨fun e => hc (Or.inl e), fun e => hc (Or.inr e)⟩
    · by_contra hc
      exact c4 ⟨fun e => hc (Or.inl e), fun e => hc (Or.inr e)⟩
    · split_ifs at hd with hdig
      · injection hd with hd
        refine ⟨hdig, ?_⟩
        show fv.toNat = _
        rw [hd]
        have h1 := hdig.1
        have h2 := hdig.2
        simp only [dig, UInt8.toNat_ofNat']
        omega

/-- `1,2,N,3,E,1,x` and five more fields: not a number of satellites, refused; with `08` there it is eight. -/
def pay (sats : List UInt8) : List UInt8 :=
  [49, 50, 51, 53, 49, 57, 44, 50, 44, 78, 44, 51, 44, 69, 44, 49, 44] ++ sats ++
    [44, 49, 44, 49, 44, 77, 44, 49, 44, 77]

/-- What such a payload is read as. -/
def readPay (sats : List UInt8) (n : Nat) : Option (Bool × UInt8 × UInt8 × UInt8) :=
  match runFields (fun i => (pay sats).getD i 0) handlers n 0
      ⟨⟨0, 0, 0, 0⟩, List.replicate 11 0, 0, List.replicate 11 0, 0, 0, 0⟩ with
  | .ok (b, g) => some (b, g.sats, g.ns, g.fix)
  | .error _ => none

example : (readPay [120] 28).map Prod.fst = some false := by decide +kernel

example : readPay [48, 56] 29 = some (true, 8, 78, 1) := by decide +kernel

end Verif.Nmea
