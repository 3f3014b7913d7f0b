import Verif.Proofs.Nmea

set_option autoImplicit false

/-!
# NMEA decoder: attempts, the decode loop, the buffer
-/

namespace Verif.Nmea
open NmeaSpec MsgFrame

/-! ## One attempt -/

theorem sub16_le {a b : Nat} (h : b ≤ a) (ha : a < 65536) : sub16 a b = a - b := by
  unfold sub16; omega

/-- What a successful attempt found. -/
structure Found (s : Nmea) (o : Out) (n : Nat) (o' : Out) (star : Nat) : Prop where
  len : n = star + 5
  room : s.start + 9 ≤ star
  stop : star ≤ s.stop
  inBuf : star < bufLen
  sentence : Sentence (slice s.data (s.start + 1) (star - (s.start + 1))) (slice s.data s.start (star + 5 - s.start))
  talk : slice s.data (s.start + 1) 6 = talker
  nostar : ∀ j, s.start + 7 ≤ j → j < star → s.data j ≠ 42
  received : s.stop ≤ bufLen → star + 5 ≤ s.stop ∨ star = s.stop
  type : o'.type = .gpgga
  fields : runFields s.data handlers (star - (s.start + 7)) (s.start + 7) o.gga = .ok (true, o'.gga)

theorem slice_sentence (d : Nat → UInt8) (st star : Nat) (h : st + 1 ≤ star) :
    slice d st (star + 5 - st) = [d st] ++ slice d (st + 1) (star - (st + 1)) ++
      [d star, d (star + 1), d (star + 2), d (star + 3), d (star + 4)] := by
  rw [show star + 5 - st = (1 + (star - (st + 1))) + 5 by omega, slice_add, slice_add,
    show st + (1 + (star - (st + 1))) = star by omega]
  rfl

theorem locate_some {s : Nmea} {star : Nat} (h : locate s = .ok (some star)) :
    s.data s.start = 36 ∧ s.start + 6 < bufLen ∧ s.data (s.start + 6) = 44 ∧
      findStar s.data s.stop (bufLen - (s.start + 7)) (s.start + 7) = .ok (some star) ∧
      4 ≤ sub16 s.stop (star + 1) ∧ star + 4 < bufLen ∧ s.data (star + 3) = 13 ∧ s.data (star + 4) = 10 := by
  unfold locate at h
  rcases h1 : tryStart s with e | b
  · rw [h1] at h; simp at h
  rw [h1] at h
  cases b with
  | false => simp at h
  | true =>
    dsimp only at h
    rcases h2 : tryTalker s with e | b
    · rw [h2] at h; simp at h
    rw [h2] at h
    cases b with
    | false => simp at h
    | true =>
      dsimp only at h
      rcases h3 : findStar s.data s.stop (bufLen - (s.start + 7)) (s.start + 7) with e | r
      · rw [h3] at h; simp at h
      rw [h3] at h
      cases r with
      | none => simp at h
      | some t =>
        dsimp only at h
        rcases h4 : tryMsgEnd s t with e | b
        · rw [h4] at h; simp at h
        rw [h4] at h
        cases b with
        | false => simp at h
        | true =>
          dsimp only at h
          injection h with h
          injection h with h
          subst h
          unfold tryStart rd at h1
          split_ifs at h1
          · dsimp only at h1
            injection h1 with h1
            unfold tryTalker at h2
            split_ifs at h2
            injection h2 with h2
            unfold tryMsgEnd at h4
            split_ifs at h4
            · simp at h4
            · simp at h4
            · injection h4 with h4
              exact ⟨by simpa using h1, by omega, by simpa using h2, rfl, by omega, by omega, by simp_all,
                by simpa using h4⟩

theorem tryDecode_sound {s : Nmea} {o o' : Out} {n : Nat} (h : tryDecode s o = .ok (n, o')) (hn : n ≠ 0) :
    ∃ star, Found s o n o' star := by
  unfold tryDecode at h
  dsimp only at h
  have hz : ∀ {x y : Nat × Out}, (Except.ok x : C (Nat × Out)) = .ok y → x = y := fun h => by injection h
  by_cases h1 : s.stop = s.start
  · rw [if_pos h1] at h
    exact absurd (congrArg Prod.fst (hz h)).symm hn
  rw [if_neg h1] at h
  by_cases h2 : sub16 s.stop s.start < 13
  · rw [if_pos h2] at h
    exact absurd (congrArg Prod.fst (hz h)).symm hn
  rw [if_neg h2] at h
  rcases hl : locate s with e | r
  · rw [hl] at h; simp at h
  rw [hl] at h
  cases r with
  | none => exact absurd (congrArg Prod.fst (hz h)).symm hn
  | some star =>
    dsimp only at h
    by_cases h3 : verifyChecksum s.data s.start (s.start + 7) star (s.data (star + 1)) (s.data (star + 2)) = true
    · rw [if_pos h3] at h
      rcases hp : tryPayload s star { o with type := .null } with e | ⟨b, o1⟩
      · rw [hp] at h; simp at h
      rw [hp] at h
      cases b with
      | false => exact absurd (congrArg Prod.fst (hz h)).symm hn
      | true =>
        have hh := hz h
        injection hh with e1 e2
        subst e2
        unfold tryPayload at hp
        split_ifs at hp with h12
        swap
        · simp at hp
        rcases hr : runFields s.data handlers (star - (s.start + 7)) (s.start + 7) o.gga with e | ⟨b, g⟩
        · rw [hr] at hp; simp at hp
        rw [hr] at hp
        dsimp only at hp
        injection hp with hp
        injection hp with hp1 hp2
        subst hp1 hp2
        obtain ⟨l1, l2, l3, l4, l5, l6, l7, l8⟩ := locate_some hl
        obtain ⟨g1, g2, g3, g4, g5⟩ := findStar_sound l4
        obtain ⟨k1, v1, v0, k2, k3, k4⟩ := (verifyChecksum_iff _ _ _ _ _ _).mp h3
        refine ⟨star, e1.symm, by omega, g2, by omega, ?_, ?_, g5, ?_, rfl, hr⟩
        · refine ⟨_, _, v1, v0, ?_, k2, k3, k4⟩
          rw [slice_sentence _ _ _ (by omega), l1, l7, l8, g4]
        · rw [show (6 : Nat) = 5 + 1 from rfl, slice_add]
          have : slice s.data (s.start + 1) 5 = gpgga := h12
          rw [this]
          show gpgga ++ [s.data (s.start + 6)] = _
          rw [l3]; rfl
        · intro hb
          have : bufLen = 1024 := rfl
          unfold sub16 at l5
          omega
    · rw [if_neg h3] at h
      exact absurd (congrArg Prod.fst (hz h)).symm hn

theorem tryDecode_no_dollar {s : Nmea} (o : Out) (hs : s.start < bufLen) (hd : s.data s.start ≠ 36) :
    tryDecode s o = .ok (0, { o with type := .null }) := by
  have hl : locate s = .ok none := by
    unfold locate tryStart
    rw [rd_ok hs]
    dsimp only
    rw [show (s.data s.start == 0x24) = false by simpa using hd]
  unfold tryDecode
  rw [hl]
  dsimp only
  split_ifs <;> rfl

/-! ## The loop -/

/-- State with another start. -/
abbrev at' (s : Nmea) (p : Nat) : Nmea := { s with start := p }

theorem decodeLoop_true {used : Nat} {s : Nmea} {o : Out} {u : Nat} {s' : Nmea} {o' : Out}
    (hs : s.start + used = s.stop) (hb : s.stop ≤ bufLen)
    (h : decodeLoop used s o = .ok (true, u, s', o')) :
    ∃ p n o1 star, s.start ≤ p ∧ Found (at' s p) o1 n o' star ∧ s' = at' s ((p + n) % 65536) := by
  induction used generalizing s o with
  | zero => unfold decodeLoop at h; simp at h
  | succ k ih =>
    have hbl : bufLen = 1024 := rfl
    unfold decodeLoop at h
    split_ifs at h with h1
    · simp at h
    · rcases ht : tryDecode s o with e | ⟨n, o1⟩
      · rw [ht] at h; simp at h
      · rw [ht] at h
        dsimp only at h
        split_ifs at h with h2
        · rw [Nat.mod_eq_of_lt (by omega)] at h
          obtain ⟨p, n', o2, star, g1, g2, g3⟩ := ih (s := at' s (s.start + 1)) (by dsimp only; omega) hb h
          exact ⟨p, n', o2, star, by dsimp only at g1; omega, g2, g3⟩
        · injection h with h
          simp only [Prod.mk.injEq, true_and] at h
          obtain ⟨-, h3, h4⟩ := h
          subst h4
          obtain ⟨star, hf⟩ := tryDecode_sound ht h2
          exact ⟨s.start, n, o, star, le_refl _, hf, h3.symm⟩

theorem decodeLoop_false {used : Nat} {s : Nmea} {o : Out} {u : Nat} {s' : Nmea} {o' : Out}
    (hs : s.start + used = s.stop) (hb : s.stop ≤ bufLen)
    (h : decodeLoop used s o = .ok (false, u, s', o')) :
    ∃ p, s.start ≤ p ∧ s' = at' s p ∧ p + u = s.stop ∧ u ≤ 13 ∧ (13 < used → u = 13) := by
  induction used generalizing s o with
  | zero =>
    unfold decodeLoop at h
    injection h with h
    simp only [Prod.mk.injEq, true_and] at h
    obtain ⟨rfl, rfl, -⟩ := h
    exact ⟨s.start, le_refl _, rfl, hs, by omega, by omega⟩
  | succ k ih =>
    have hbl : bufLen = 1024 := rfl
    unfold decodeLoop at h
    split_ifs at h with h1
    · injection h with h
      simp only [Prod.mk.injEq, true_and] at h
      obtain ⟨rfl, rfl, -⟩ := h
      exact ⟨s.start, le_refl _, rfl, hs, h1, by omega⟩
    · rcases ht : tryDecode s o with e | ⟨n, o1⟩
      · rw [ht] at h; simp at h
      · rw [ht] at h
        dsimp only at h
        split_ifs at h with h2
        swap
        · simp at h
        rw [Nat.mod_eq_of_lt (by omega)] at h
        obtain ⟨p, g1, g2, g3, g4, g5⟩ := ih (s := at' s (s.start + 1)) (by dsimp only; omega) hb h
        dsimp only at g1 g3
        refine ⟨p, by omega, g2, g3, g4, fun _ => ?_⟩
        by_cases hk : 13 < k
        · exact g5 hk
        · have hk13 : k = 13 := by omega
          subst hk13
          unfold decodeLoop at h
          rw [if_pos (show 12 + 1 ≤ 13 by decide)] at h
          injection h with h
          simp only [Prod.mk.injEq, true_and] at h
          exact h.1.symm

theorem decodeLoop_no_dollar (used : Nat) (s : Nmea) (o : Out)
    (hs : s.start + used = s.stop) (hb : s.stop ≤ bufLen) (hd : ∀ j, s.start ≤ j → j < s.stop → s.data j ≠ 36) :
    ∃ o', decodeLoop used s o = .ok (false, min used 13, at' s (s.stop - min used 13), o') := by
  have hbl : bufLen = 1024 := rfl
  induction used generalizing s o with
  | zero =>
    refine ⟨o, ?_⟩
    unfold decodeLoop at'
    rw [show s.stop - min 0 13 = s.start by omega]
    simp
  | succ k ih =>
    unfold decodeLoop
    split_ifs with h1
    · refine ⟨o, ?_⟩
      unfold at'
      rw [Nat.min_eq_left h1, show s.stop - (k + 1) = s.start by omega]
    · rw [tryDecode_no_dollar o (by omega) (hd s.start (le_refl _) (by omega))]
      dsimp only
      rw [if_pos rfl, Nat.mod_eq_of_lt (by omega)]
      obtain ⟨o', ho⟩ := ih (at' s (s.start + 1)) { o with type := .null } (by dsimp only; omega) hb
        (fun j h1 h2 => hd j (by dsimp only at h1; omega) h2)
      refine ⟨o', ?_⟩
      rw [ho]
      rw [show min (k + 1) 13 = min k 13 by omega]

theorem trimFront_spec (d : Nat → UInt8) (n start : Nat) (h : start + n ≤ bufLen) :
    ∃ p, trimFront d n start = .ok p ∧ start ≤ p ∧ p ≤ start + n ∧ (p < start + n → d p = 36) ∧
      ∀ j, start ≤ j → j < p → d j ≠ 36 := by
  induction n generalizing start with
  | zero => exact ⟨start, rfl, le_refl _, by omega, by omega, fun j _ _ => by omega⟩
  | succ n ih =>
    unfold trimFront
    rw [rd_ok (by omega)]
    dsimp only
    by_cases hc : d start ≠ 36
    · rw [if_pos hc]
      obtain ⟨p, g1, g2, g3, g4, g5⟩ := ih (start + 1) (by omega)
      refine ⟨p, g1, by omega, by omega, fun _ => g4 (by omega), ?_⟩
      intro j h1 h2
      rcases Nat.eq_or_lt_of_le h1 with rfl | h1'
      · exact hc
      · exact g5 j h1' h2
    · rw [if_neg hc]
      exact ⟨start, rfl, le_refl _, by omega, fun _ => by simpa using hc, fun j _ _ => by omega⟩

/-- Decoder invariant. -/
structure Inv (s : Nmea) : Prop where
  ordered : s.start ≤ s.stop
  space : s.stop + s.avail = bufLen

/-- Received bytes not consumed yet. -/
def content (s : Nmea) : List UInt8 := slice s.data s.start (s.stop - s.start)

theorem accumulate_spec {s : Nmea} (hi : Inv s) (bytes : List UInt8) :
    ∃ b s', accumulate s bytes = .ok (b, s') ∧ Inv s' ∧ s'.start = s.start ∧
      (b = false → s' = s) ∧ (b = true → content s' = content s ++ bytes ∧ s'.stop = s.stop + bytes.length ∧
        s'.data = store s.data s.stop bytes) ∧ (b = true ↔ bytes.length ≤ s.avail) := by
  have h1 := hi.ordered; have h2 := hi.space
  unfold accumulate
  by_cases h : s.avail < bytes.length
  · rw [if_pos h]
    exact ⟨false, s, rfl, hi, rfl, fun _ => rfl, by simp, by simp; omega⟩
  · rw [if_neg h, if_neg (by omega)]
    refine ⟨true, _, rfl, ⟨by dsimp only; omega, by dsimp only; omega⟩, rfl, by simp,
      fun _ => ⟨?_, rfl, rfl⟩, by simp; omega⟩
    unfold content
    dsimp only
    rw [show s.stop + bytes.length - s.start = (s.stop - s.start) + bytes.length by omega, slice_add,
      slice_store_before _ (by omega), show s.start + (s.stop - s.start) = s.stop by omega, slice_store]

theorem compact_spec {s : Nmea} {u : Nat} (hi : Inv s) (hu : s.start + u = s.stop) :
    ∃ s', compact s u = .ok s' ∧ Inv s' ∧ content s' = content s ∧ s'.start ≤ 1 ∧ s'.stop = s'.start + u := by
  have h1 := hi.ordered; have h2 := hi.space
  have hbl : bufLen = 1024 := rfl
  unfold compact
  by_cases h : 1 < s.start
  · rw [if_pos h, if_neg (by omega)]
    have e1 : sub16 s.stop s.start = u := by rw [sub16_le h1 (by omega)]; omega
    refine ⟨_, rfl, ⟨Nat.zero_le _, ?_⟩, ?_, Nat.zero_le _, ?_⟩
    · dsimp only; rw [e1]; omega
    · unfold content
      dsimp only
      rw [e1, Nat.sub_zero, compact_loop, show s.stop - s.start = u by omega]
      apply slice_ext
      intro j hj
      simp only [Nat.zero_add, hj, if_true]
      rw [Nat.add_comm]
    · dsimp only; rw [e1]; omega
  · rw [if_neg h]
    exact ⟨s, rfl, hi, rfl, by omega, by omega⟩

/-! ## Completeness of one attempt -/

/-- The C string in an array. -/
def cstr (l : List UInt8) : List UInt8 := l.takeWhile (· ≠ 0)

/-- The output holds the fix. -/
structure Matches (x : Fix) (g : Gga) : Prop where
  time : timeOf x.time = some g.time.val
  lat : cstr g.lat = x.lat
  ns : g.ns = x.ns
  lon : cstr g.lon = x.lon
  ew : g.ew = x.ew
  fix : g.fix.toNat = dig x.fix
  sats : g.sats.toNat = natVal x.sats

theorem timeOf_clean {l : List UInt8} (h : (timeOf l).isSome) : ∀ c ∈ l, c ≠ 0 := by
  have hz : ∀ x : UInt8, IsDigit x → x ≠ 0 := by rintro x hx rfl; exact absurd hx (by decide)
  unfold timeOf at h
  split at h
  · split_ifs at h with hh
    · intro c hc; exact hz c (hh c hc)
    · simp at h
  · split_ifs at h with hh
    · obtain ⟨hh, rfl⟩ := hh
      simp only [List.mem_cons, List.not_mem_nil, or_false, forall_eq_or_imp, forall_eq] at hh ⊢
      obtain ⟨h1, h2, h3, h4, h5, h6, h7, h8, h9⟩ := hh
      exact ⟨hz _ h1, hz _ h2, hz _ h3, hz _ h4, hz _ h5, hz _ h6, by decide, hz _ h7, hz _ h8, hz _ h9⟩
    · simp at h
  · simp at h

theorem cstr_strncpy (dst f : List UInt8) (hf : ∀ c ∈ f, c ≠ 0) : cstr (strncpyTok dst f) = f := by
  unfold cstr strncpyTok
  have h1 : f.takeWhile (· ≠ 0) = f := by
    clear dst
    induction f with
    | nil => rfl
    | cons c f ih =>
      rw [List.takeWhile_cons_of_pos (by simpa using hf c (by simp)), ih (fun c hc => hf c (List.mem_cons_of_mem _ hc))]
  rw [h1]
  dsimp only
  rw [show f.length + 1 - f.length = 1 by omega]
  rw [List.append_assoc, List.takeWhile_append_of_pos (by simpa using hf)]
  simp

/-- The position arrays: the text, a NUL, then what was there before. -/
def Arrays (g : Gga) (x : Fix) (g' : Gga) : Prop :=
  g'.lat = x.lat ++ 0 :: g.lat.drop (x.lat.length + 1) ∧ g'.lon = x.lon ++ 0 :: g.lon.drop (x.lon.length + 1)

theorem strncpy_text (dst f : List UInt8) (hf : ∀ c ∈ f, c ≠ 0) :
    strncpyTok dst f = f ++ 0 :: dst.drop (f.length + 1) := by
  unfold strncpyTok
  have h1 : f.takeWhile (· ≠ 0) = f := by
    clear dst
    induction f with
    | nil => rfl
    | cons c f ih =>
      rw [List.takeWhile_cons_of_pos (by simpa using hf c (by simp)), ih (fun c hc => hf c (List.mem_cons_of_mem _ hc))]
  rw [h1]
  dsimp only
  rw [show f.length + 1 - f.length = 1 by omega]
  simp

theorem pureRun_fix (x : Fix) (hx : x.Ok) (g : Gga) :
    ∃ g', pureRun handlers x.fields g = (true, g') ∧ Matches x g' ∧ Arrays g x g' := by
  obtain ⟨t, ht, hv⟩ : ∃ t, utcTime (fun i => x.time.getD i 0) = some t ∧ timeOf x.time = some t.val := by
    have h1 := utcTime_spec x.time (timeOf_clean hx.time)
    have h2 := hx.time
    rw [← h1, Option.isSome_map] at h2
    obtain ⟨t, ht⟩ := Option.isSome_iff_exists.mp h2
    exact ⟨t, ht, by rw [← h1, ht]; rfl⟩
  obtain ⟨u1, u2, u3, u4, u5, hu⟩ : ∃ u1 u2 u3 u4 u5, x.unused = [u1, u2, u3, u4, u5] := by
    have := hx.five
    match h : x.unused with
    | [] | [_] | [_, _] | [_, _, _] | [_, _, _, _] | _ :: _ :: _ :: _ :: _ :: _ :: _ => simp [h] at this
    | [a, b, c, d, e] => exact ⟨a, b, c, d, e, rfl⟩
  have hs := (strToUInt8Dec_spec x.sats).1 hx.sats.2.1
  unfold Fix.fields handlers
  rw [hu]
  simp only [List.cons_append, List.nil_append, pureRun]
  have e1 : hTime x.time g = (true, { g with time := t }) := by unfold hTime; rw [ht]
  rw [e1]
  have e2 : ∀ g, hLat x.lat g = (true, { g with lat := strncpyTok g.lat x.lat }) := by
    intro g; unfold hLat; rw [if_neg (by have := hx.lat.2.1; omega)]
  have e3 : ∀ g, hNs [x.ns] g = (true, { g with ns := x.ns }) := by
    intro g; unfold hNs
    rcases hx.ns with h | h <;> simp [h]
  have e4 : ∀ g, hLon x.lon g = (true, { g with lon := strncpyTok g.lon x.lon }) := by
    intro g; unfold hLon; rw [if_neg (by have := hx.lon.2.1; omega)]
  have e5 : ∀ g, hEw [x.ew] g = (true, { g with ew := x.ew }) := by
    intro g; unfold hEw
    rcases hx.ew with h | h <;> simp [h]
  have e6 : ∀ g, hFix [x.fix] g = (true, { g with fix := UInt8.ofNat (dig x.fix) }) := by
    intro g; unfold hFix
    rw [show ([x.fix] : List UInt8).getD 0 0 = x.fix from rfl, charToUInt8Dec_eq, if_pos hx.fix]
  have e7 : ∀ g, hSats x.sats g = (true, { g with sats := (strToUInt8Dec x.sats).2 }) := by
    intro g; unfold hSats; simp only [hs.1]
  simp only [e2, e3, e4, e5, e6, e7, hSkip]
  refine ⟨_, rfl, ⟨hv, ?_, rfl, ?_, rfl, ?_, ?_⟩, strncpy_text _ _ hx.lat.2.2, strncpy_text _ _ hx.lon.2.2⟩
  · exact cstr_strncpy _ _ hx.lat.2.2
  · exact cstr_strncpy _ _ hx.lon.2.2
  · have h := hx.fix
    unfold IsDigit at h
    dsimp only
    unfold dig
    rw [UInt8.toNat_ofNat']
    omega
  · dsimp only
    rw [hs.2, Nat.mod_eq_of_lt hx.sats.2.2]

theorem mem_join {c : UInt8} {fs : List (List UInt8)} (h : c ∈ join fs) : c = 44 ∨ ∃ f ∈ fs, c ∈ f := by
  induction fs with
  | nil => simp [join] at h
  | cons f fs ih =>
    cases fs with
    | nil => exact Or.inr ⟨f, by simp, h⟩
    | cons g fs =>
      rw [join_cons_cons, List.mem_append, List.mem_cons] at h
      rcases h with h | h | h
      · exact Or.inr ⟨f, by simp, h⟩
      · exact Or.inl h
      · rcases ih h with h | ⟨f', h1, h2⟩
        · exact Or.inl h
        · exact Or.inr ⟨f', List.mem_cons_of_mem _ h1, h2⟩

theorem fix_nostar {x : Fix} (hx : x.Ok) : ∀ c ∈ x.body, c ≠ 42 := by
  intro c hc
  unfold Fix.body at hc
  rw [List.mem_append] at hc
  rcases hc with hc | hc
  · revert c; decide
  · rcases mem_join hc with rfl | ⟨f, h1, h2⟩
    · decide
    · exact (hx.clean f h1 c h2).2

theorem slice_mem {d : Nat → UInt8} {i n : Nat} {c : UInt8} : c ∈ slice d i n ↔ ∃ j, i ≤ j ∧ j < i + n ∧ d j = c := by
  unfold slice
  rw [List.mem_map]
  simp only [List.mem_range'_1]
  constructor
  · rintro ⟨j, ⟨h1, h2⟩, h3⟩; exact ⟨j, h1, h2, h3⟩
  · rintro ⟨j, h1, h2, h3⟩; exact ⟨j, ⟨h1, h2⟩, h3⟩

/-- The parts of a sentence standing at `st` in the buffer. -/
theorem slice_parts {d : Nat → UInt8} {st : Nat} {rest : List UInt8} {m : List UInt8}
    (hm : Sentence (talker ++ rest) m) (hd : slice d st m.length = m) :
    m.length = rest.length + 12 ∧ d st = 36 ∧ slice d (st + 1) 6 = talker ∧
      slice d (st + 7) rest.length = rest ∧ d (st + 7 + rest.length) = 42 ∧
      d (st + 7 + rest.length + 3) = 13 ∧ d (st + 7 + rest.length + 4) = 10 ∧
      ∃ v1 v0, hexVal (d (st + 7 + rest.length + 1)) = some v1 ∧ hexVal (d (st + 7 + rest.length + 2)) = some v0 ∧
        v1 * 16 + v0 = (xorAll (talker ++ rest)).toNat := by
  obtain ⟨k1, k0, v1, v0, rfl, h1, h0, hv⟩ := hm
  have hlen : ([36] ++ (talker ++ rest) ++ [42, k1, k0, 13, 10]).length = 1 + (6 + (rest.length + 5)) := by
    simp [talker]; omega
  rw [hlen, slice_add, slice_add, slice_add] at hd
  have hd' : slice d st 1 ++ (slice d (st + 1) 6 ++ (slice d (st + 1 + 6) rest.length ++
      slice d (st + 1 + 6 + rest.length) 5)) = [36] ++ (talker ++ (rest ++ [42, k1, k0, 13, 10])) := by
    rw [hd]; simp
  obtain ⟨a1, a2⟩ := List.append_inj hd' (by simp [slice_length])
  obtain ⟨a2, a3⟩ := List.append_inj a2 (by simp [slice_length, talker])
  obtain ⟨a3, a4⟩ := List.append_inj a3 (by simp [slice_length])
  have a4' : [d (st + 7 + rest.length), d (st + 7 + rest.length + 1), d (st + 7 + rest.length + 2),
      d (st + 7 + rest.length + 3), d (st + 7 + rest.length + 4)] = [42, k1, k0, 13, 10] := a4
  simp only [List.cons.injEq, and_true] at a4'
  obtain ⟨b1, b2, b3, b4, b5⟩ := a4'
  refine ⟨by rw [hlen]; omega, ?_, a2, a3, b1, b4, b5, v1, v0, by rw [b2]; exact h1, by rw [b3]; exact h0, hv⟩
  have : [d st] = [36] := a1
  simpa using this

/-- `locate` and the checksum on a well-formed sentence in the buffer. -/
theorem locate_sentence {s : Nmea} {rest m : List UInt8} (hm : Sentence (talker ++ rest) m)
    (hd : slice s.data s.start m.length = m) (hs : s.start + m.length ≤ s.stop) (hb : s.stop ≤ bufLen)
    (hr : 2 ≤ rest.length) (hns : ∀ c ∈ rest, c ≠ 42) :
    locate s = .ok (some (s.start + 7 + rest.length)) ∧
      verifyChecksum s.data s.start (s.start + 7) (s.start + 7 + rest.length)
        (s.data (s.start + 7 + rest.length + 1)) (s.data (s.start + 7 + rest.length + 2)) = true := by
  obtain ⟨h1, h2, h3, h4, h5, h6, h7, v1, v0, h8, h9, h10⟩ := slice_parts hm hd
  have hbl : bufLen = 1024 := rfl
  constructor
  · unfold locate
    have t1 : tryStart s = .ok true := by
      unfold tryStart; rw [rd_ok (by omega)]; dsimp only; rw [h2]; rfl
    have t2 : tryTalker s = .ok true := by
      unfold tryTalker; rw [if_neg (by omega)]
      have : s.data (s.start + 6) = 44 := by
        have := congrArg (fun l => l[5]?) h3
        simp only [slice_getElem?] at this
        have e : some (s.data (s.start + 1 + 5)) = some 44 := this
        injection e
      rw [this]; rfl
    have t3 : findStar s.data s.stop (bufLen - (s.start + 7)) (s.start + 7) =
        .ok (some (s.start + 7 + rest.length)) := by
      apply findStar_hit _ _ _ _ _ (by omega) (by omega) (by omega) h5
      intro j g1 g2 hj
      exact hns 42 (by rw [← h4]; exact slice_mem.mpr ⟨j, g1, g2, hj⟩) rfl
    have t4 : tryMsgEnd s (s.start + 7 + rest.length) = .ok true := by
      unfold tryMsgEnd
      rw [sub16_le (by omega) (by omega), if_neg (by omega), if_neg (by omega), if_neg (by simp [h6]),
        if_neg (by omega), h7]
      rfl
    rw [t1]; dsimp only
    rw [t2]; dsimp only
    rw [t3]; dsimp only
    rw [t4]
  · rw [verifyChecksum_iff]
    refine ⟨by omega, v1, v0, h8, h9, ?_⟩
    rw [h10, show s.start + 7 + rest.length - (s.start + 1) = 6 + rest.length by omega, slice_add, h3,
      show s.start + 1 + 6 = s.start + 7 by omega, h4]

theorem join_length_ge (x : Fix) : 2 ≤ (join x.fields).length := by
  unfold Fix.fields
  simp only [List.cons_append, join_cons_cons, List.length_append, List.length_cons]
  omega

theorem tryDecode_complete {s : Nmea} (o : Out) {x : Fix} (hx : x.Ok) {m : List UInt8} (hm : Sentence x.body m)
    (hd : slice s.data s.start m.length = m) (hs : s.start + m.length ≤ s.stop) (hb : s.stop ≤ bufLen) :
    ∃ g, tryDecode s o = .ok (s.start + m.length, ⟨.gpgga, g⟩) ∧ Matches x g ∧ Arrays o.gga x g := by
  have hbl : bufLen = 1024 := rfl
  have hr := join_length_ge x
  obtain ⟨h1, h2, h3, h4, -, -, -, -⟩ := slice_parts (rest := join x.fields) hm hd
  obtain ⟨l1, l2⟩ := locate_sentence (rest := join x.fields) hm hd hs hb hr
    (fun c hc => fix_nostar hx c (List.mem_append_right _ hc))
  obtain ⟨g, hg, hmat⟩ := pureRun_fix x hx o.gga
  refine ⟨g, ?_, hmat⟩
  unfold tryDecode
  dsimp only
  rw [if_neg (by omega), sub16_le (by omega) (by omega), if_neg (by omega), l1]
  dsimp only
  rw [if_pos l2]
  have hp : tryPayload s (s.start + 7 + (join x.fields).length) { o with type := .null } =
      .ok (true, ⟨.gpgga, g⟩) := by
    unfold tryPayload
    rw [if_pos (by
      show slice s.data (s.start + 1) 5 = gpgga
      rw [← slice_take _ _ 5 6 (by omega), h3]; rfl)]
    dsimp only
    rw [show s.start + 7 + (join x.fields).length - (s.start + 7) = (join x.fields).length by omega]
    rw [runFields_fields s.data handlers x.fields (s.start + 7) o.gga _ rfl ?_ ?_ ?_ ?_ h4 (by omega)
      (fun _ => by omega), hg]
    · unfold handlers Fix.fields
      simp only [List.length_append, List.length_cons, List.length_nil, hx.five]; omega
    · intro f hf
      have hf' : f ∈ [x.time, x.lat, [x.ns], x.lon, [x.ew], [x.fix], x.sats] ++ x.unused := by
        unfold Fix.fields at hf
        rw [List.take_left' (by simp [handlers, hx.five])] at hf
        exact hf
      rw [List.mem_append] at hf'
      rcases hf' with hf' | hf'
      · simp only [List.mem_cons, List.not_mem_nil, or_false] at hf'
        rcases hf' with rfl | rfl | rfl | rfl | rfl | rfl | rfl
        · by_contra hc
          have : x.time = [] := by cases hh : x.time <;> simp_all
          have ht := hx.time
          rw [this] at ht
          exact absurd ht (by decide)
        · exact hx.lat.1
        · simp
        · exact hx.lon.1
        · simp
        · simp
        · exact hx.sats.1
      · exact hx.present f hf'
    · intro f hf c hc
      exact (hx.clean f hf c hc).1
    · intro f hf
      exact hx.short f hf
  rw [hp]
  dsimp only
  rw [show s.start + 7 + (join x.fields).length + 5 = s.start + m.length by omega]

end Verif.Nmea
