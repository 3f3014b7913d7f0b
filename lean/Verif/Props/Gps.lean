import Verif.Model.Gps
import Verif.Props.Nmea

set_option autoImplicit false

/-!
# C79-C80: GPS task

`view` is what a consumer that reads the position arrays as C strings sees.
-/

namespace Verif.Gps
open Nmea NmeaSpec MsgFrame

/-! ## The decoder and its output object -/

/-- The record as a reader of C strings sees it. -/
structure View where
  time : UtcTime
  lat : List UInt8
  ns : UInt8
  lon : List UInt8
  ew : UInt8
  fix : UInt8
  sats : UInt8
  deriving DecidableEq

/-- A string ends at the first NUL. -/
def view (p : GpsState) : View :=
  ⟨p.utcTime, p.latitude.takeWhile (· ≠ 0), p.nsIndicator, p.longitude.takeWhile (· ≠ 0), p.ewIndicator,
    p.positionFix, p.nSatellites⟩

/-- The first `k` fields agree. -/
def Agree (k : Nat) (g1 g2 : Gga) : Prop :=
  (0 < k → g1.time = g2.time) ∧ (1 < k → cstr g1.lat = cstr g2.lat) ∧ (2 < k → g1.ns = g2.ns) ∧
  (3 < k → cstr g1.lon = cstr g2.lon) ∧ (4 < k → g1.ew = g2.ew) ∧ (5 < k → g1.fix = g2.fix) ∧
  (6 < k → g1.sats = g2.sats)

theorem cstr_strncpy_any (d1 d2 tok : List UInt8) : cstr (strncpyTok d1 tok) = cstr (strncpyTok d2 tok) := by
  have key : ∀ d, cstr (strncpyTok d tok) = tok.takeWhile (· ≠ 0) := by
    intro d
    unfold cstr strncpyTok
    dsimp only
    have hl : (tok.takeWhile (· ≠ 0)).length ≤ tok.length := (List.takeWhile_sublist _).length_le
    have hr : List.replicate (tok.length + 1 - (tok.takeWhile (· ≠ 0)).length) (0 : UInt8) =
        0 :: List.replicate (tok.length - (tok.takeWhile (· ≠ 0)).length) 0 := by
      rw [← List.replicate_succ]; congr 1; omega
    rw [hr, List.append_assoc, List.takeWhile_append_of_pos]
    · simp
    · intro c hc
      exact List.all_eq_true.mp (List.all_takeWhile) c hc
  rw [key, key]

/-- A handler neither succeeds nor fails because of the output object, and what it
stores does not depend on it. -/
def Step (k : Nat) (h : Handler) : Prop :=
  ∀ tok g1 g2, Agree k g1 g2 →
    (h tok g1).1 = (h tok g2).1 ∧ ((h tok g1).1 = true → Agree (k + 1) (h tok g1).2 (h tok g2).2)

theorem step_time : Step 0 hTime := by
  intro tok g1 g2 _
  unfold hTime
  cases utcTime (fun i => tok.getD i 0) with
  | none => exact ⟨rfl, by simp⟩
  | some t => exact ⟨rfl, fun _ => by unfold Agree; dsimp only; simp⟩

theorem step_lat : Step 1 hLat := by
  intro tok g1 g2 h
  unfold hLat
  split_ifs
  · exact ⟨rfl, by simp⟩
  · refine ⟨rfl, fun _ => ?_⟩
    unfold Agree at *
    dsimp only
    exact ⟨fun _ => h.1 (by omega), fun _ => cstr_strncpy_any _ _ _, by omega, by omega, by omega, by omega, by omega⟩

theorem step_ns : Step 2 hNs := by
  intro tok g1 g2 h
  unfold hNs
  dsimp only
  split_ifs
  · exact ⟨rfl, by simp⟩
  · refine ⟨rfl, fun _ => ?_⟩
    unfold Agree at *
    dsimp only
    exact ⟨fun _ => h.1 (by omega), fun _ => h.2.1 (by omega), fun _ => rfl, by omega, by omega, by omega, by omega⟩

theorem step_lon : Step 3 hLon := by
  intro tok g1 g2 h
  unfold hLon
  split_ifs
  · exact ⟨rfl, by simp⟩
  · refine ⟨rfl, fun _ => ?_⟩
    unfold Agree at *
    dsimp only
    exact ⟨fun _ => h.1 (by omega), fun _ => h.2.1 (by omega), fun _ => h.2.2.1 (by omega),
      fun _ => cstr_strncpy_any _ _ _, by omega, by omega, by omega⟩

theorem step_ew : Step 4 hEw := by
  intro tok g1 g2 h
  unfold hEw
  dsimp only
  split_ifs
  · exact ⟨rfl, by simp⟩
  · refine ⟨rfl, fun _ => ?_⟩
    unfold Agree at *
    dsimp only
    exact ⟨fun _ => h.1 (by omega), fun _ => h.2.1 (by omega), fun _ => h.2.2.1 (by omega),
      fun _ => h.2.2.2.1 (by omega), fun _ => rfl, by omega, by omega⟩

theorem step_fix : Step 5 hFix := by
  intro tok g1 g2 h
  unfold hFix
  cases charToUInt8Dec (tok.getD 0 0) with
  | none => exact ⟨rfl, by simp⟩
  | some v =>
    refine ⟨rfl, fun _ => ?_⟩
    unfold Agree at *
    dsimp only
    exact ⟨fun _ => h.1 (by omega), fun _ => h.2.1 (by omega), fun _ => h.2.2.1 (by omega),
      fun _ => h.2.2.2.1 (by omega), fun _ => h.2.2.2.2.1 (by omega), fun _ => rfl, by omega⟩

theorem step_sats : Step 6 hSats := by
  intro tok g1 g2 h
  unfold hSats
  dsimp only
  refine ⟨rfl, fun _ => ?_⟩
  unfold Agree at *
  dsimp only
  exact ⟨fun _ => h.1 (by omega), fun _ => h.2.1 (by omega), fun _ => h.2.2.1 (by omega),
      fun _ => h.2.2.2.1 (by omega), fun _ => h.2.2.2.2.1 (by omega), fun _ => h.2.2.2.2.2.1 (by omega), fun _ => rfl⟩

theorem step_skip (k : Nat) (hk : 7 ≤ k) : Step k hSkip := by
  intro tok g1 g2 h
  refine ⟨rfl, fun _ => ?_⟩
  unfold Agree hSkip at *
  dsimp only
  exact ⟨fun _ => h.1 (by omega), fun _ => h.2.1 (by omega), fun _ => h.2.2.1 (by omega),
      fun _ => h.2.2.2.1 (by omega), fun _ => h.2.2.2.2.1 (by omega), fun _ => h.2.2.2.2.2.1 (by omega),
      fun _ => h.2.2.2.2.2.2 (by omega)⟩

/-- Every handler at its place. -/
inductive Steps : Nat → List Handler → Prop
  | nil (k) : Steps k []
  | cons {k h hs} : Step k h → Steps (k + 1) hs → Steps k (h :: hs)

theorem steps_handlers : Steps 0 handlers :=
  .cons step_time <| .cons step_lat <| .cons step_ns <| .cons step_lon <| .cons step_ew <| .cons step_fix <|
  .cons step_sats <| .cons (step_skip _ (by decide)) <| .cons (step_skip _ (by decide)) <|
  .cons (step_skip _ (by decide)) <| .cons (step_skip _ (by decide)) <| .cons (step_skip _ (by decide)) <| .nil _

/-- Two results of the field decoder agree. -/
def RelF (k : Nat) : C (Bool × Gga) → C (Bool × Gga) → Prop
  | .error e1, .error e2 => e1 = e2
  | .ok (b1, g1), .ok (b2, g2) => b1 = b2 ∧ (b1 = true → Agree k g1 g2)
  | _, _ => False

theorem runFields_two (d : Nat → UInt8) (hs : List Handler) (k left pos : Nat) (g1 g2 : Gga)
    (h : Steps k hs) (ha : Agree k g1 g2) :
    RelF (k + hs.length) (runFields d hs left pos g1) (runFields d hs left pos g2) := by
  induction hs generalizing k left pos g1 g2 with
  | nil =>
    unfold runFields
    cases nextTok d left pos [] with
    | error e => rfl
    | ok t => exact ⟨rfl, fun _ => ha⟩
  | cons f fs ih =>
    cases h with
    | cons h1 h2 =>
    unfold runFields
    cases nextTok d left pos [] with
    | error e => rfl
    | ok t =>
      dsimp only
      split_ifs
      · exact ⟨rfl, by simp⟩
      · obtain ⟨e1, e2⟩ := h1 t.chars g1 g2 ha
        rcases ha1 : f t.chars g1 with ⟨b1, r1⟩
        rcases ha2 : f t.chars g2 with ⟨b2, r2⟩
        rw [ha1, ha2] at e1 e2
        dsimp only at e1 e2
        subst e1
        cases b1 with
        | false => exact ⟨rfl, by simp⟩
        | true =>
          have := ih (k + 1) t.left t.pos r1 r2 h2 (e2 rfl)
          rw [List.length_cons, show k + (fs.length + 1) = k + 1 + fs.length by omega]
          exact this

/-- Two outcomes of an attempt or a call agree: same result and, on success, the same
values. -/
def RelT : C (Nat × Out) → C (Nat × Out) → Prop
  | .error e1, .error e2 => e1 = e2
  | .ok (n1, o1), .ok (n2, o2) => n1 = n2 ∧ (n1 ≠ 0 → o1.type = .gpgga ∧ o2.type = .gpgga ∧ Agree 12 o1.gga o2.gga)
  | _, _ => False

theorem tryDecode_two (s : Nmea) (o1 o2 : Out) : RelT (tryDecode s o1) (tryDecode s o2) := by
  unfold tryDecode
  dsimp only
  split_ifs
  · exact ⟨rfl, by simp⟩
  · exact ⟨rfl, by simp⟩
  · cases locate s with
    | error e => rfl
    | ok r =>
      cases r with
      | none => exact ⟨rfl, by simp⟩
      | some star =>
        dsimp only
        split_ifs
        · unfold tryPayload
          split_ifs
          · dsimp only
            have := runFields_two s.data handlers 0 (star - (s.start + 7)) (s.start + 7) o1.gga o2.gga steps_handlers
              (by unfold Agree; omega)
            rcases h1 : runFields s.data handlers (star - (s.start + 7)) (s.start + 7) o1.gga with e1 | ⟨b1, g1⟩ <;>
              rcases h2 : runFields s.data handlers (star - (s.start + 7)) (s.start + 7) o2.gga with e2 | ⟨b2, g2⟩ <;>
              rw [h1, h2] at this
            · exact this
            · exact this.elim
            · exact this.elim
            · obtain ⟨rfl, hg⟩ := this
              cases b1 with
              | false => exact ⟨rfl, by simp⟩
              | true => exact ⟨rfl, fun _ => ⟨rfl, rfl, hg rfl⟩⟩
          · exact ⟨rfl, by simp⟩
        · exact ⟨rfl, by simp⟩

/-- Two outcomes of the decode loop agree. -/
def RelL : C (Bool × Nat × Nmea × Out) → C (Bool × Nat × Nmea × Out) → Prop
  | .error e1, .error e2 => e1 = e2
  | .ok (b1, u1, s1, o1), .ok (b2, u2, s2, o2) => b1 = b2 ∧ u1 = u2 ∧ s1 = s2 ∧
      (b1 = true → o1.type = .gpgga ∧ o2.type = .gpgga ∧ Agree 12 o1.gga o2.gga)
  | _, _ => False

theorem decodeLoop_two (used : Nat) (s : Nmea) (o1 o2 : Out) : RelL (decodeLoop used s o1) (decodeLoop used s o2) := by
  induction used generalizing s o1 o2 with
  | zero => exact ⟨rfl, rfl, rfl, by simp⟩
  | succ k ih =>
    unfold decodeLoop
    split_ifs
    · exact ⟨rfl, rfl, rfl, by simp⟩
    · have := tryDecode_two s o1 o2
      rcases h1 : tryDecode s o1 with e1 | ⟨n1, q1⟩ <;> rcases h2 : tryDecode s o2 with e2 | ⟨n2, q2⟩ <;>
        rw [h1, h2] at this
      · exact this
      · exact this.elim
      · exact this.elim
      · obtain ⟨rfl, hg⟩ := this
        dsimp only
        split_ifs with hn
        · exact ih _ _ _
        · exact ⟨rfl, rfl, rfl, fun _ => hg hn⟩

/-- Two outcomes of `NmeaDecode_Decode` agree. -/
def RelD : C (Bool × Nmea × Out) → C (Bool × Nmea × Out) → Prop
  | .error e1, .error e2 => e1 = e2
  | .ok (b1, s1, o1), .ok (b2, s2, o2) => b1 = b2 ∧ s1 = s2 ∧
      (b1 = true → o1.type = .gpgga ∧ o2.type = .gpgga ∧ Agree 12 o1.gga o2.gga)
  | _, _ => False

theorem decode_two (s : Nmea) (o1 o2 : Out) : RelD (decode s o1) (decode s o2) := by
  unfold decode
  cases trimFront s.data (s.stop - s.start) s.start with
  | error e => rfl
  | ok q =>
    dsimp only
    have := decodeLoop_two (sub16 s.stop q) { s with start := q } o1 o2
    rcases h1 : decodeLoop (sub16 s.stop q) { s with start := q } o1 with e1 | ⟨b1, u1, s1, q1⟩ <;>
      rcases h2 : decodeLoop (sub16 s.stop q) { s with start := q } o2 with e2 | ⟨b2, u2, s2, q2⟩ <;>
      rw [h1, h2] at this
    · exact this
    · exact this.elim
    · exact this.elim
    · obtain ⟨rfl, rfl, rfl, hg⟩ := this
      cases b1 with
      | true => exact ⟨rfl, rfl, hg⟩
      | false =>
        dsimp only
        cases compact s1 u1 with
        | error e => rfl
        | ok t => exact ⟨rfl, rfl, by simp⟩

/-! ## C79: the published record -/

theorem view_push {acq : Bool} {p1 p2 : GpsState} {g1 g2 : Gga} (hp : view p1 = view p2) (hg : Agree 12 g1 g2) :
    view (push acq p1 g1) = view (push acq p2 g2) := by
  unfold push
  cases acq with
  | false => exact hp
  | true =>
    obtain ⟨h1, h2, h3, h4, h5, h6, h7⟩ := hg
    unfold view
    have h2 := h2 (by decide); have h4 := h4 (by decide)
    unfold cstr at h2 h4
    simp only [if_true, h1 (by decide), h3 (by decide), h5 (by decide), h6 (by decide), h7 (by decide), h2, h4]

/-- The outcome as seen by readers of C strings. -/
def seen : C (Option (List GpsState × Nmea × GpsState)) → C (Option (List View × Nmea × View)) :=
  Except.map (Option.map fun r => (r.1.map view, r.2.1, view r.2.2))

/-- The records of a later part appended to those of an earlier one. -/
def after (ps : List GpsState) : C (Option (List GpsState × Nmea × GpsState)) →
    C (Option (List GpsState × Nmea × GpsState))
  | .error e => .error e
  | .ok none => .ok none
  | .ok (some (ps', t, q)) => .ok (some (ps ++ ps', t, q))

theorem seen_after {ps1 ps2 : List GpsState} {r1 r2 : C (Option (List GpsState × Nmea × GpsState))}
    (hps : ps1.map view = ps2.map view) (h : seen r1 = seen r2) : seen (after ps1 r1) = seen (after ps2 r2) := by
  rcases r1 with e1 | _ | ⟨a1, b1, c1⟩ <;> rcases r2 with e2 | _ | ⟨a2, b2, c2⟩ <;>
    simp_all [seen, after, Except.map]

theorem loop_two (fuel : Nat) (acq : Nat → Bool) (s : Nmea) (o1 o2 : Out) (p1 p2 : GpsState) (hp : view p1 = view p2) :
    seen (loop fuel acq s o1 p1) = seen (loop fuel acq s o2 p2) := by
  induction fuel generalizing acq s o1 o2 p1 p2 with
  | zero => rfl
  | succ n ih =>
    unfold loop
    have := decode_two s o1 o2
    rcases h1 : decode s o1 with e1 | ⟨b1, s1, q1⟩ <;> rcases h2 : decode s o2 with e2 | ⟨b2, s2, q2⟩ <;>
      rw [h1, h2] at this
    · obtain rfl : e1 = e2 := this
      rfl
    · exact this.elim
    · exact this.elim
    · obtain ⟨rfl, rfl, hg⟩ := this
      cases b1 with
      | false => simp [seen, Except.map, hp]
      | true =>
        obtain ⟨t1, t2, ha⟩ := hg rfl
        dsimp only
        rw [t1, t2]
        dsimp only
        have hpp := view_push (acq := acq 0) hp ha
        exact seen_after (ps1 := [_]) (ps2 := [_]) (by simp [hpp]) (ih (fun i => acq (i + 1)) s1 q1 q2 _ _ hpp)

/-- **C79, what holds.** For every sequence of activations, every decoder state and
every two assignments of leftover stack contents, the two executions behave alike:
the same out-of-bounds access or none, the same decoder state, the same number of
records, and every record reads the same through its C strings. -/
theorem C79_strings_partial (fuel : Nat) (is : List Input) (junk : Nat → Out) (s : Nmea) (p1 p2 : GpsState)
    (hp : view p1 = view p2) :
    seen (run fuel (is.mapIdx fun n i => { i with junk := junk n }) s p1) = seen (run fuel is s p2) := by
  induction is generalizing junk s p1 p2 with
  | nil => simp [run, seen, Except.map, hp]
  | cons i is ih =>
    rw [List.mapIdx_cons]
    have key : seen (activation fuel i.batch (junk 0) i.acq s p1) = seen (activation fuel i.batch i.junk i.acq s p2) := by
      unfold activation
      split_ifs
      · simp [seen, Except.map, hp]
      · cases logLine i.batch.length with
        | error e => rfl
        | ok off =>
          dsimp only
          cases accumulate s i.batch with
          | error e => rfl
          | ok r =>
            obtain ⟨b, s'⟩ := r
            cases b with
            | false => simp [seen, Except.map, hp]
            | true => exact loop_two fuel i.acq s' (junk 0) i.junk p1 p2 hp
    unfold run
    dsimp only
    rcases h1 : activation fuel i.batch (junk 0) i.acq s p1 with e1 | _ | ⟨a1, b1, c1⟩ <;>
      rcases h2 : activation fuel i.batch i.junk i.acq s p2 with e2 | _ | ⟨a2, b2, c2⟩ <;> rw [h1, h2] at key
    any_goals (simp [seen, Except.map] at key; done)
    · simpa [seen, Except.map] using key
    · simp only [seen, Except.map, Option.map_some, Except.ok.injEq, Option.some.injEq, Prod.mk.injEq] at key
      obtain ⟨k1, rfl, k3⟩ := key
      exact seen_after k1 (ih (fun n => junk (n + 1)) b1 c1 c2 k3)

/-! ## One sentence in one activation -/

theorem put_ok {o n : Nat} (h : o + n + 1 ≤ 4096) : put o n = .ok (o + n) := by
  unfold put streamSize; rw [if_pos (by omega)]

theorem putEach_ok (n o : Nat) (h : o + n + 1 ≤ 4096) : putEach n o = .ok (o + n) := by
  induction n generalizing o with
  | zero => rfl
  | succ n ih =>
    unfold putEach
    rw [put_ok (by omega)]
    dsimp only
    rw [ih _ (by omega)]
    congr 1; omega

/-- **C80, the log line.** Building the log line stays inside its array for every
number of bytes the stream buffer can deliver. -/
theorem C80_log_line (n : Nat) (h : n ≤ 2048) : logLine n = .ok (24 + n) := by
  unfold logLine prefixLen
  rw [put_ok (by omega)]
  dsimp only
  rw [putEach_ok _ _ (by omega)]
  dsimp only
  rw [put_ok (by omega)]
  congr 1; omega

/-- The limit is 4071 bytes: a larger stream buffer would overflow the array. -/
theorem C80_log_line_limit (n : Nat) : (∃ off, logLine n = .ok off) ↔ n ≤ 4071 := by
  constructor
  · rintro ⟨off, h⟩
    by_contra hn
    have key : ∀ n o off, putEach n o = .ok off → off = o + n := by
      intro n
      induction n with
      | zero => intro o off h; injection h with h; omega
      | succ n ih =>
        intro o off h
        unfold putEach at h
        rcases hp : put o 1 with e | q
        · rw [hp] at h; simp at h
        · rw [hp] at h
          dsimp only at h
          have := ih _ _ h
          unfold put at hp
          split_ifs at hp
          injection hp with hp
          omega
    unfold logLine prefixLen at h
    rw [put_ok (by omega)] at h
    dsimp only at h
    rcases hq : putEach n (0 + 23) with e | q
    · rw [hq] at h; simp at h
    · rw [hq] at h
      dsimp only at h
      have := key _ _ _ hq
      unfold put streamSize at h
      rw [if_neg (by omega)] at h
      simp at h
  · intro h
    refine ⟨24 + n, ?_⟩
    unfold logLine prefixLen
    rw [put_ok (by omega)]
    dsimp only
    rw [putEach_ok _ _ (by omega)]
    dsimp only
    rw [put_ok (by omega)]
    congr 1; omega

/-- **C79 fails.** One valid sentence in one read, whatever the fix: the record
published is the fix, but behind the terminator of the latitude and of the longitude
it carries the previous contents of the task's stack. -/
theorem C79_stack_published {s : Nmea} (hs : Empty s) {x : Fix} (hx : x.Ok) {m : List UInt8}
    (hm : Sentence x.body m) (hlen : m.length ≤ 1024) (junk : Out) (acq : Nat → Bool) (ha : acq 0 = true)
    (p : GpsState) (fuel : Nat) :
    ∃ q s', activation (fuel + 2) m junk acq s p = .ok (some ([q], s', q)) ∧ Empty s' ∧
      q.latitude = x.lat ++ 0 :: junk.gga.lat.drop (x.lat.length + 1) ∧
      q.longitude = x.lon ++ 0 :: junk.gga.lon.drop (x.lon.length + 1) := by
  have hbl : Nmea.bufLen = 1024 := rfl
  have h14 := fix_length hm
  obtain ⟨s1, a1, a2, a3, a4, a5, -⟩ := load hs m hlen
  obtain ⟨f, hf, -, hA, hB⟩ := decode_here junk a4 (g := []) (rest := []) hx hm (by simpa using a5) (by simp)
  have hsp := a4.space
  obtain ⟨s3, e1, e2⟩ := decode_reset
    (s := { s1 with start := s1.start + ([] : List UInt8).length + (s1.start + ([] : List UInt8).length + m.length) })
    ⟨.gpgga, f⟩ (by simp only [List.length_nil]; omega) (by simp only [List.length_nil]; omega) hsp
  refine ⟨push true p f, s3, ?_, e2, hA, hB⟩
  unfold activation
  rw [if_neg (by rintro rfl; simp at h14), C80_log_line _ (by omega), a1]
  dsimp only
  unfold loop
  rw [hf]
  dsimp only
  unfold loop
  rw [e1, ha]

/-- Two executions that differ only in leftover stack contents publish different
records. -/
theorem C79_stack_visible {s : Nmea} (hs : Empty s) {x : Fix} (hx : x.Ok) {m : List UInt8}
    (hm : Sentence x.body m) (hlen : m.length ≤ 1024) (hlat : x.lat.length ≤ 9) (p : GpsState) (o : Out)
    (fuel : Nat) : ∃ j1 j2 q1 q2 s1 s2,
      activation (fuel + 2) m j1 (fun _ => true) s p = .ok (some ([q1], s1, q1)) ∧
      activation (fuel + 2) m j2 (fun _ => true) s p = .ok (some ([q2], s2, q2)) ∧
      j1.gga.lat.length = 11 ∧ j2.gga.lat.length = 11 ∧ q1 ≠ q2 := by
  let j1 : Out := { o with gga := { o.gga with lat := List.replicate 11 1 } }
  let j2 : Out := { o with gga := { o.gga with lat := List.replicate 11 2 } }
  obtain ⟨q1, s1, h1, -, k1, -⟩ := C79_stack_published hs hx hm hlen j1 (fun _ => true) rfl p fuel
  obtain ⟨q2, s2, h2, -, k2, -⟩ := C79_stack_published hs hx hm hlen j2 (fun _ => true) rfl p fuel
  refine ⟨j1, j2, q1, q2, s1, s2, h1, h2, rfl, rfl, ?_⟩
  rintro rfl
  rw [k1] at k2
  have := List.append_cancel_left k2
  injection this with _ this
  dsimp only [j1, j2] at this
  rw [List.drop_replicate, List.drop_replicate] at this
  have h := congrArg (fun l => l.getD 0 0) this
  obtain ⟨n, hn⟩ : ∃ n, 11 - (x.lat.length + 1) = n + 1 := ⟨10 - x.lat.length - 1, by omega⟩
  rw [hn] at h
  exact absurd h (by simp [List.replicate_succ])

/-! ## C80: every activation ends and leaves room -/

/-- The space of the decoder adds up; the read cursor may have run past the end. -/
structure Weak (s : Nmea) : Prop where
  space : s.stop + s.avail = 1024
  start : s.start ≤ 2100

theorem decodeLoop_over (used : Nat) {s : Nmea} (o : Out) (h1 : s.stop < s.start) (h2 : s.start ≤ 3000)
    (h3 : s.start + used = s.stop + 65536) :
    (∃ e, decodeLoop used s o = .error e) ∨
    ∃ u o' n, decodeLoop used s o = .ok (true, u, at' s n, o') ∧ s.start + 14 ≤ n ∧ n ≤ 2100 ∧ s.start < 1024 := by
  have hbl : Nmea.bufLen = 1024 := rfl
  induction used generalizing s o with
  | zero => omega
  | succ k ih =>
    unfold decodeLoop
    rw [if_neg (by omega)]
    rcases ht : tryDecode s o with e | ⟨n, o1⟩
    · exact Or.inl ⟨e, rfl⟩
    · dsimp only
      by_cases hn : n = 0
      · by_cases hb : s.start < 1024
        · rw [if_pos hn, Nat.mod_eq_of_lt (by omega)]
          rcases ih (s := at' s (s.start + 1)) o1 (by dsimp only; omega) (by dsimp only; omega) (by dsimp only; omega)
            with ⟨e, he⟩ | ⟨u, o', n, h, g1, g2, -⟩
          · exact Or.inl ⟨e, he⟩
          · dsimp only at g1
            exact Or.inr ⟨u, o', n, h, by omega, g2, hb⟩
        · rw [tryDecode_outside o h1 (by omega) (by omega)] at ht
          simp at ht
      · rw [if_neg hn]
        obtain ⟨star, hf⟩ := tryDecode_sound ht hn
        have := hf.len; have := hf.room; have := hf.inBuf
        rw [Nat.mod_eq_of_lt (by omega)]
        exact Or.inr ⟨0, o1, s.start + n, rfl, by omega, by omega, by omega⟩

/-- One call of the decoder. -/
theorem decode_cases {s : Nmea} (o : Out) (hw : Weak s) :
    (∃ e, decode s o = .error e) ∨
    (∃ s' o', decode s o = .ok (false, s', o') ∧ Inv s' ∧ s'.stop ≤ 14) ∨
    (∃ s' o', decode s o = .ok (true, s', o') ∧ Weak s' ∧ s.start + 14 ≤ s'.start ∧ s.start < 1024) := by
  have hbl : Nmea.bufLen = 1024 := rfl
  have hsp := hw.space; have hst := hw.start
  by_cases ho : s.start ≤ s.stop
  · have hi : Inv s := ⟨ho, hsp⟩
    rcases hd : decode s o with e | ⟨b, s', o'⟩
    · exact Or.inl ⟨e, rfl⟩
    · cases b with
      | false =>
        obtain ⟨g1, -, g3⟩ := decode_false hi hd
        exact Or.inr (Or.inl ⟨s', o', rfl, g1, g3⟩)
      | true =>
        refine Or.inr (Or.inr ⟨s', o', rfl, ?_⟩)
        unfold decode at hd
        obtain ⟨q, g1, g2, g3, -, -⟩ := trimFront_spec s.data (s.stop - s.start) s.start (by omega)
        rw [g1] at hd
        dsimp only at hd
        rw [sub16_le (by omega) (by omega)] at hd
        rcases hl : decodeLoop (s.stop - q) { s with start := q } o with e | ⟨b, u, t, o1⟩
        · rw [hl] at hd; simp at hd
        · rw [hl] at hd
          cases b with
          | false =>
            dsimp only at hd
            rcases hc : Nmea.compact t u with e | t'
            · rw [hc] at hd; simp at hd
            · rw [hc] at hd; simp at hd
          | true =>
            dsimp only at hd
            injection hd with hd
            simp only [Prod.mk.injEq, true_and] at hd
            obtain ⟨rfl, rfl⟩ := hd
            obtain ⟨p, n, o2, star, k1, k2, k3⟩ := decodeLoop_true (by dsimp only; omega) (by dsimp only; omega) hl
            have h1 := k2.len; have h2 := k2.room; have h3 := k2.inBuf
            dsimp only at k1 h2
            rw [k3, Nat.mod_eq_of_lt (by omega)]
            exact ⟨⟨hsp, by dsimp only; omega⟩, by dsimp only; omega, by omega⟩
  · have e0 : trimFront s.data (s.stop - s.start) s.start = .ok s.start := by
      rw [show s.stop - s.start = 0 by omega]; rfl
    have e1 : sub16 s.stop s.start = s.stop + 65536 - s.start := by unfold sub16; omega
    rcases decodeLoop_over (s.stop + 65536 - s.start) (s := s) o (by omega) (by omega) (by omega) with ⟨e, he⟩ | ⟨u, o', n, h, g1, g2, g3⟩
    · refine Or.inl ⟨e, ?_⟩
      unfold decode
      rw [e0]; dsimp only
      rw [e1, he]
    · refine Or.inr (Or.inr ⟨at' s n, o', ?_, ⟨hsp, g2⟩, g1, g3⟩)
      unfold decode
      rw [e0]; dsimp only
      rw [e1, h]

theorem loop_ends (fuel : Nat) (acq : Nat → Bool) {s : Nmea} (o : Out) (p : GpsState) (hw : Weak s)
    (h1 : 1 ≤ fuel) (h2 : 1038 ≤ s.start + 14 * fuel) :
    (∃ e, loop fuel acq s o p = .error e) ∨
    ∃ ps s' q, loop fuel acq s o p = .ok (some (ps, s', q)) ∧ Inv s' ∧ s'.stop ≤ 14 := by
  induction fuel generalizing acq s o p with
  | zero => omega
  | succ n ih =>
    unfold loop
    rcases decode_cases o hw with ⟨e, he⟩ | ⟨s', o', hd, g1, g2⟩ | ⟨s', o', hd, g1, g2, g3⟩
    · rw [he]; exact Or.inl ⟨e, rfl⟩
    · rw [hd]; exact Or.inr ⟨[], s', p, rfl, g1, g2⟩
    · rw [hd]
      dsimp only
      cases o'.type
      all_goals
        dsimp only
        rcases ih (fun i => acq (i + 1)) o' _ g1 (by omega) (by omega) with ⟨e, he⟩ | ⟨ps, t, q, h, k1, k2⟩
        · rw [he]; exact Or.inl ⟨e, rfl⟩
        · rw [h]; exact Or.inr ⟨_ :: ps, t, q, rfl, k1, k2⟩

/-- The decoder between activations: at most 14 bytes kept, so 1010 or more free. -/
def Room (s : Nmea) : Prop := Inv s ∧ s.stop ≤ 14

/-- **C80, one activation.** From a decoder with room, every activation either
accesses memory outside the decoder's buffers or ends after at most 75 decoder calls
and leaves room again. -/
theorem C80_activation (fuel : Nat) (hf : 75 ≤ fuel) (batch : List UInt8) (hb : batch.length ≤ 2048) (junk : Out)
    (acq : Nat → Bool) {s : Nmea} (p : GpsState) (hr : Room s) :
    (∃ e, activation fuel batch junk acq s p = .error e) ∨
    ∃ ps s' q, activation fuel batch junk acq s p = .ok (some (ps, s', q)) ∧ Room s' := by
  obtain ⟨hi, hs⟩ := hr
  unfold activation
  by_cases h0 : batch = []
  · rw [if_pos h0]; exact Or.inr ⟨[], s, p, rfl, hi, hs⟩
  · rw [if_neg h0, C80_log_line _ hb]
    dsimp only
    obtain ⟨b, s', a1, a2, a3, a4, -, -⟩ := accumulate_spec hi batch
    rw [a1]
    cases b with
    | false => rw [a4 rfl]; exact Or.inr ⟨[], s, p, rfl, hi, hs⟩
    | true =>
      have := hi.ordered
      rcases loop_ends fuel acq (s := s') junk p ⟨a2.space, by omega⟩ (by omega) (by omega)
        with ⟨e, he⟩ | ⟨ps, t, q, h, k1, k2⟩
      · exact Or.inl ⟨e, he⟩
      · exact Or.inr ⟨ps, t, q, h, k1, k2⟩

/-- **C80, every execution.** Unless memory outside the decoder's buffers is
accessed, every activation of every execution ends, and there is room for any next
batch of at most 1010 bytes. -/
theorem C80_always_room (fuel : Nat) (hf : 75 ≤ fuel) (is : List Input) (hb : ∀ i ∈ is, i.batch.length ≤ 2048)
    (d : Nat → UInt8) (p : GpsState) :
    (∃ e, run fuel is (Nmea.init d) p = .error e) ∨
    ∃ ps s' q, run fuel is (Nmea.init d) p = .ok (some (ps, s', q)) ∧ Room s' ∧
      ∀ batch : List UInt8, batch.length ≤ 1010 → ∃ t, accumulate s' batch = .ok (true, t) := by
  have gen : ∀ (is : List Input) (s : Nmea) (p : GpsState), (∀ i ∈ is, i.batch.length ≤ 2048) → Room s →
      (∃ e, run fuel is s p = .error e) ∨ ∃ ps s' q, run fuel is s p = .ok (some (ps, s', q)) ∧ Room s' := by
    intro is
    induction is with
    | nil => intro s p _ hr; exact Or.inr ⟨[], s, p, rfl, hr⟩
    | cons i is ih =>
      intro s p hb hr
      unfold run
      rcases C80_activation fuel hf i.batch (hb i (by simp)) i.junk i.acq p hr with ⟨e, he⟩ | ⟨ps, s', q, h, hr'⟩
      · rw [he]; exact Or.inl ⟨e, rfl⟩
      · rw [h]
        dsimp only
        rcases ih s' q (fun j hj => hb j (List.mem_cons_of_mem _ hj)) hr' with ⟨e, he⟩ | ⟨ps', t, q', h', hr''⟩
        · rw [he]; exact Or.inl ⟨e, rfl⟩
        · rw [h']; exact Or.inr ⟨_, t, q', rfl, hr''⟩
  rcases gen is (Nmea.init d) p hb ⟨⟨le_refl _, rfl⟩, Nat.zero_le _⟩ with h | ⟨ps, s', q, h, hr⟩
  · exact Or.inl h
  · refine Or.inr ⟨ps, s', q, h, hr, fun batch hlen => ?_⟩
    obtain ⟨b, t, a1, -, -, -, -, a6⟩ := accumulate_spec hr.1 batch
    have hsp := hr.1.space; have hst := hr.2
    have hbl : Nmea.bufLen = 1024 := rfl
    have : b = true := a6.mpr (by omega)
    subst this
    exact ⟨t, a1⟩

/-- A batch larger than the decoder's buffer is thrown away whole, valid sentences
included. -/
theorem C80_large_batch (fuel : Nat) (batch : List UInt8) (h1 : 1024 < batch.length) (h2 : batch.length ≤ 2048)
    (junk : Out) (acq : Nat → Bool) {s : Nmea} (p : GpsState) (hr : Room s) :
    activation fuel batch junk acq s p = .ok (some ([], s, p)) := by
  unfold activation
  obtain ⟨b, s', a1, -, -, a4, -, a6⟩ := accumulate_spec hr.1 batch
  have hsp := hr.1.space
  have hbl : Nmea.bufLen = 1024 := rfl
  have hb : b = false := by
    cases b with
    | false => rfl
    | true => have := a6.mp rfl; omega
  subst hb
  rw [if_neg (by rintro rfl; simp at h1), C80_log_line _ h2, a1, a4 rfl]

/-! ## Concrete cases -/

/-- A record before the first fix. -/
def rec0 : GpsState := ⟨⟨0, 0, 0, 0⟩, List.replicate 11 0, 0, List.replicate 11 0, 0, 0, 0⟩

/-- Leftover stack contents. -/
def junkA : Out := ⟨.null, { out0.gga with lat := List.replicate 11 0x41, lon := List.replicate 11 0x42 }⟩

example : (activation 75 msgA junkA (fun _ => true) fresh0 rec0).map (Option.map fun r => (r.2.2.latitude, view r.2.2)) =
    .ok (some (fixA.lat ++ [0, 0x41],
      ⟨⟨16, 12, 29, 487⟩, fixA.lat, 78, fixA.lon, 87, 1, 7⟩)) := by decide +kernel

/-- A failed acquisition publishes nothing; the decoder still moves on. -/
example : (activation 75 msgA junkA (fun _ => false) fresh0 rec0).map (Option.map fun r => (r.2.2 == rec0, r.2.1.avail)) =
    .ok (some (true, 1024)) := by decide +kernel

end Verif.Gps
