import Verif.Model.Wheelspeed
import Verif.Spec.Wheelspeed
import Mathlib.Tactic.Linarith
import Mathlib.Tactic.SplitIfs

set_option autoImplicit false

/-!
# C52: wheel speed
-/

namespace Verif.Wheelspeed
open WheelspeedSpec

theorem risingEdges_cons2 (a b : Bool) (l : List Bool) :
    risingEdges (a :: b :: l) = risingEdges (b :: l) + (if !a && b then 1 else 0) := by
  simp [risingEdges, List.countP_cons]

/-- At most every second sample is a rising edge. -/
theorem risingEdges_le : ∀ l : List Bool,
    2 * risingEdges l ≤ l.length ∧ (l.head? = some true → 2 * risingEdges l + 1 ≤ l.length)
  | [] => by simp [risingEdges]
  | [a] => by simp [risingEdges]
  | a :: b :: l => by
    have ih := risingEdges_le (b :: l)
    rw [risingEdges_cons2]
    simp only [List.length_cons, List.head?_cons] at ih ⊢
    cases a <;> cases b <;> simp at ih ⊢ <;> omega

/-- The sensor bits of a byte, as the code tests them. -/
theorem bit_front (p c : UInt8) :
    (p &&& 0x2 = 0 ∧ 0 < c &&& 0x2) ↔ ((!front p && front c) = true) := by
  have h : ∀ p : UInt8, (decide (p &&& 0x2 = 0) = !front p) ∧ (decide (0 < p &&& 0x2) = front p) := by
    intro p
    obtain ⟨⟨x⟩⟩ := p
    revert x
    decide +kernel
  rw [← (h p).1, ← (h c).2]; simp

theorem bit_rear (p c : UInt8) :
    (p &&& 0x1 = 0 ∧ 0 < c &&& 0x1) ↔ ((!rear p && rear c) = true) := by
  have h : ∀ p : UInt8, (decide (p &&& 0x1 = 0) = !rear p) ∧ (decide (0 < p &&& 0x1) = rear p) := by
    intro p
    obtain ⟨⟨x⟩⟩ := p
    revert x
    decide +kernel
  rw [← (h p).1, ← (h c).2]; simp

theorem countLoop_eq : ∀ (xs : List UInt8) (x : UInt8) (f r : UInt16),
    countLoop x xs (f, r) =
      (f + UInt16.ofNat (risingEdges ((x :: xs).map front)),
       r + UInt16.ofNat (risingEdges ((x :: xs).map rear)))
  | [], x, f, r => by simp [countLoop, risingEdges]
  | y :: ys, x, f, r => by
    rw [countLoop, countStep]
    simp only [bit_front, bit_rear]
    rw [countLoop_eq ys y]
    simp only [List.map_cons, risingEdges_cons2]
    refine Prod.ext ?_ ?_ <;> dsimp only <;> split <;> simp [UInt16.ofNat_add] <;> ac_rfl

/-- The published count of each wheel in a batch of any length below 2^16 is the number of
rising edges in the batch. -/
theorem counts_eq (b : List UInt8) :
    countLowHighTransitions b =
      (UInt16.ofNat (risingEdges (b.map front)), UInt16.ofNat (risingEdges (b.map rear))) := by
  cases b with
  | nil => rfl
  | cons x xs => rw [countLowHighTransitions, countLoop_eq]; simp

/-- What must be published for a batch: edge counts and revolutions per minute, as
numbers. -/
def Publishes (teeth : Nat) (batch : List UInt8) (w : WheelState) : Prop :=
  w.wssCountFront.toNat = risingEdges (batch.map front) ∧
  w.wssCountRear.toNat = risingEdges (batch.map rear) ∧
  w.wheelspeedFront.toNat = 60 * risingEdges (batch.map front) / teeth ∧
  w.wheelspeedRear.toNat = 60 * risingEdges (batch.map rear) / teeth

theorem rpm_eq (n : Nat) (hn : n ≤ 1000) (teeth : UInt16) (ht : teeth ≠ 0) :
    ∃ v, rpm (UInt16.ofNat n) teeth = .ok v ∧ v.toNat = 60 * n / teeth.toNat := by
  refine ⟨_, by rw [rpm, if_neg ht], ?_⟩
  have e : (UInt16.ofNat n).toNat = n := by
    rw [UInt16.toNat_ofNat']; exact Nat.mod_eq_of_lt (by omega)
  have hle : 60 * n / teeth.toNat ≤ 60 * n := Nat.div_le_self _ _
  rw [UInt32.toNat_toUInt16, UInt32.toNat_div, UInt32.toNat_mul, UInt16.toNat_toUInt32,
    UInt16.toNat_toUInt32, e]
  have e60 : (60 : UInt32).toNat = 60 := rfl
  rw [e60, Nat.mod_eq_of_lt (show 60 * n < 2 ^ 32 by omega)]
  exact Nat.mod_eq_of_lt (by omega)

/-- C52 for one update: with at least one tooth, an update on a non-empty stream takes the
oldest (at most 2000) samples and publishes exactly their rising edges and the floor of
60 · edges / teeth, without truncation. Without samples, or on other ticks, nothing is
published or taken. -/
theorem C52_batch_partial (s : St) (ht : s.teeth ≠ 0) :
    ∃ u s', tick s true = .ok (u, s') ∧ s'.teeth = s.teeth ∧
      (s.counter % 100 = 0 →
        s.stream = s.stream.take 2000 ++ s'.stream ∧
        (s.stream ≠ [] → Publishes s.teeth.toNat (s.stream.take 2000) s'.published) ∧
        (s.stream = [] → s'.published = s.published)) ∧
      (s.counter % 100 ≠ 0 → s'.stream = s.stream ∧ s'.published = s.published) := by
  have hb : batchMax = 2000 := rfl
  unfold tick
  by_cases hc : s.counter % 100 = 0
  · rw [if_pos hc]
    dsimp only
    by_cases hl : 0 < (s.stream.take batchMax).length
    · rw [if_pos hl, counts_eq]
      have lf := (risingEdges_le ((s.stream.take 2000).map front)).1
      have lr := (risingEdges_le ((s.stream.take 2000).map rear)).1
      simp only [List.length_map, List.length_take] at lf lr
      obtain ⟨vf, hf, ef⟩ := rpm_eq (risingEdges ((s.stream.take 2000).map front)) (by omega) s.teeth ht
      obtain ⟨vr, hr, er⟩ := rpm_eq (risingEdges ((s.stream.take 2000).map rear)) (by omega) s.teeth ht
      rw [hb, hf, hr]
      refine ⟨_, _, rfl, rfl, fun _ => ⟨(List.take_append_drop _ _).symm, fun _ => ⟨?_, ?_, ef, er⟩, ?_⟩,
        fun h => absurd hc h⟩
      · show (UInt16.ofNat _).toNat = _
        rw [UInt16.toNat_ofNat']; exact Nat.mod_eq_of_lt (by omega)
      · show (UInt16.ofNat _).toNat = _
        rw [UInt16.toNat_ofNat']; exact Nat.mod_eq_of_lt (by omega)
      · intro h; rw [h] at hl; simp at hl
    · rw [if_neg hl]
      have he : s.stream = [] := by
        simp only [List.length_take, not_lt, Nat.le_zero_eq] at hl
        apply List.eq_nil_of_length_eq_zero; omega
      exact ⟨_, _, rfl, rfl, fun _ => ⟨by simp [he], fun h => absurd he h, fun _ => rfl⟩,
        fun h => absurd hc h⟩
  · rw [if_neg hc]
    exact ⟨_, _, rfl, rfl, fun h => absurd h hc, fun _ => ⟨rfl, rfl⟩⟩

/-- Edges are lost at batch boundaries: the edges of consecutive samples are those of the
two batches plus one if the first ends low and the second begins high. -/
theorem risingEdges_append (a : List Bool) (x y : Bool) (b : List Bool) :
    risingEdges (a ++ x :: y :: b) =
      risingEdges (a ++ [x]) + risingEdges (y :: b) + (if !x && y then 1 else 0) := by
  induction a with
  | nil => rw [List.nil_append, List.nil_append, risingEdges_cons2]; simp [risingEdges]
  | cons c a ih =>
    cases a with
    | nil =>
      simp only [List.cons_append, List.nil_append] at ih ⊢
      rw [risingEdges_cons2, ih, risingEdges_cons2]; omega
    | cons d a =>
      simp only [List.cons_append] at ih ⊢
      rw [risingEdges_cons2, ih, risingEdges_cons2]; omega

/-- C52 is false over sequences of batches: for every batch that ends with a low front line
followed by any batch that begins with a high one, the edge between them is in no published
count. -/
theorem C52_boundary_edge_lost (a b : List UInt8) (x y : UInt8) (hx : front x = false)
    (hy : front y = true) (ha : a.length + 1 ≤ 2000) (hb : b.length + 1 ≤ 2000)
    (s1 s2 : St) (p1 p2 : St) (h1 : s1.counter % 100 = 0) (h2 : s2.counter % 100 = 0)
    (t1 : s1.teeth ≠ 0) (t2 : s2.teeth ≠ 0)
    (e1 : s1.stream = a ++ [x]) (e2 : s2.stream = y :: b)
    (r1 : tick s1 true = .ok (true, p1)) (r2 : tick s2 true = .ok (true, p2)) :
    p1.published.wssCountFront.toNat + p2.published.wssCountFront.toNat + 1 =
      risingEdges ((a ++ x :: y :: b).map front) := by
  obtain ⟨u, s', h, -, hp, -⟩ := C52_batch_partial s1 t1
  obtain ⟨u', s'', h', -, hp', -⟩ := C52_batch_partial s2 t2
  rw [r1] at h
  rw [r2] at h'
  cases h
  cases h'
  have q1 := ((hp h1).2.1 (by rw [e1]; simp)).1
  have q2 := ((hp' h2).2.1 (by rw [e2]; simp)).1
  rw [e1, List.take_of_length_le (by simpa using ha)] at q1
  rw [e2, List.take_of_length_le (by simpa using hb)] at q2
  rw [q1, q2]
  simp only [List.map_append, List.map_cons, List.map_nil]
  rw [risingEdges_append, hx, hy]
  simp

/-- A configuration with zero teeth divides by zero at the first update with samples. -/
theorem C52_zero_teeth (s : St) (acq : Bool) (hc : s.counter % 100 = 0) (hs : s.stream ≠ [])
    (ht : s.teeth = 0) : tick s acq = .error .divByZero := by
  have hl : 0 < (s.stream.take batchMax).length := by
    have : 0 < s.stream.length := List.length_pos_iff.2 hs
    have hb : batchMax = 2000 := rfl
    rw [List.length_take]; omega
  unfold tick
  rw [if_pos hc]
  dsimp only
  rw [if_pos hl]
  simp only [rpm, ht, if_true]
  rfl

-- three rising edges on the front line, one on the rear, 12 teeth
example : tick { start 12 ⟨0, 0, 0, 0⟩ with stream := [0, 2, 0, 2, 1, 3, 2] } true =
    .ok (true, ⟨1, [], 12, ⟨15, 5, 3, 1⟩⟩) := by rfl

/-! ### Histories -/

/-- Interrupts and activations. -/
inductive Ev where
  | sample (mine front rear : Bool)
  | tick (acquired : Bool)

/-- The sample bytes accepted, and the batches taken, over a history. -/
structure Log where
  st : St
  accepted : List UInt8
  batches : List (List UInt8)

/-- One event on the module, with the record of samples and batches. -/
def logStep (l : Log) : Ev → C Log
  | .sample m f r =>
    let s' := sampleIsr l.st m f r
    .ok ⟨s', if s'.stream.length = l.st.stream.length then l.accepted
      else l.accepted ++ [sampleByte f r], l.batches⟩
  | .tick a => do
    let (_, s') ← tick l.st a
    .ok ⟨s', l.accepted, l.batches ++ [l.st.stream.take (l.st.stream.length - s'.stream.length)]⟩

/-- A history. -/
def logRun : Log → List Ev → C Log
  | l, [] => .ok l
  | l, e :: es => logStep l e >>= fun l' => logRun l' es

theorem tick_stream (s : St) (a : Bool) (ht : s.teeth ≠ 0) :
    ∃ u s', tick s a = .ok (u, s') ∧ s'.teeth = s.teeth ∧
      s.stream.take (s.stream.length - s'.stream.length) ++ s'.stream = s.stream := by
  have hb : batchMax = 2000 := rfl
  have key : ∀ k, s.stream.take (s.stream.length - (s.stream.drop k).length) ++ s.stream.drop k = s.stream := by
    intro k
    rw [List.length_drop]
    by_cases h : k ≤ s.stream.length
    · rw [show s.stream.length - (s.stream.length - k) = k by omega]; exact List.take_append_drop _ _
    · rw [List.drop_eq_nil_of_le (by omega), show s.stream.length - k = 0 by omega]; simp
  unfold tick
  split
  · dsimp only
    split
    · rw [counts_eq]
      have lf := (risingEdges_le ((s.stream.take 2000).map front)).1
      have lr := (risingEdges_le ((s.stream.take 2000).map rear)).1
      simp only [List.length_map, List.length_take] at lf lr
      obtain ⟨vf, hf, ef⟩ := rpm_eq (risingEdges ((s.stream.take 2000).map front)) (by omega) s.teeth ht
      obtain ⟨vr, hr, er⟩ := rpm_eq (risingEdges ((s.stream.take 2000).map rear)) (by omega) s.teeth ht
      rw [hb, hf, hr]
      refine ⟨_, _, rfl, ?_, ?_⟩
      · split <;> rfl
      · split <;> exact key _
    · exact ⟨_, _, rfl, rfl, key _⟩
  · exact ⟨_, _, rfl, rfl, by simp⟩

/-- No sample is lost between stream and batches: over every history of samples and ticks
the batches taken so far, followed by what is still buffered, are exactly the accepted
samples in order; and nothing undefined happens. -/
theorem C52_samples_fifo (es : List Ev) : ∀ (l : Log), l.st.teeth ≠ 0 →
    l.batches.flatten ++ l.st.stream = l.accepted →
    ∃ l', logRun l es = .ok l' ∧ l'.batches.flatten ++ l'.st.stream = l'.accepted := by
  induction es with
  | nil => exact fun l _ h => ⟨l, rfl, h⟩
  | cons e es ih =>
    intro l ht h
    cases e with
    | sample m f r =>
      rw [logRun, logStep]
      refine ih _ ?_ ?_
      · dsimp only [sampleIsr]; split <;> [split <;> exact ht; exact ht]
      · dsimp only [sampleIsr]
        split
        · split
          · simp [← h]
          · simpa using h
        · simpa using h
    | tick a =>
      obtain ⟨u, s', h1, h2, h3⟩ := tick_stream l.st a ht
      rw [logRun, logStep, h1]
      refine ih _ (by rw [← h2] at ht; exact ht) ?_
      show (l.batches ++ [_]).flatten ++ s'.stream = l.accepted
      rw [List.flatten_append, List.append_assoc]
      simp only [List.flatten_cons, List.flatten_nil, List.append_nil]
      rw [h3, h]

example : ∃ l, logRun ⟨start 12 ⟨0, 0, 0, 0⟩, [], []⟩
    [.sample true false true, .sample true true false, .sample false true true, .tick true] = .ok l ∧
    l.accepted = [1, 2] ∧ l.st.published = ⟨5, 0, 1, 0⟩ :=
  ⟨_, rfl, rfl, rfl⟩

/-! ### Acceptance of samples -/

/-- A sample byte carries the levels of the two lines. -/
theorem C52_sample_levels (f r : Bool) : front (sampleByte f r) = f ∧ rear (sampleByte f r) = r := by
  cases f <;> cases r <;> decide

/-- A sample of the configured timer goes to the end of the stream if there are fewer than 3999
bytes and is dropped otherwise; other timers leave the stream alone. -/
theorem C52_sample_kept (s : St) (mine f r : Bool) (h : s.stream.length ≤ 3999) :
    (sampleIsr s mine f r).stream =
      (if mine then (s.stream ++ [sampleByte f r]).take 3999 else s.stream) ∧
    (sampleIsr s mine f r).published = s.published := by
  unfold sampleIsr
  have hc : streamCap = 3999 := rfl
  split
  · split
    · exact ⟨(List.take_of_length_le (by simp; omega)).symm, rfl⟩
    · refine ⟨?_, rfl⟩
      rw [List.take_append_of_le_length (by omega), List.take_of_length_le h]
  · exact ⟨rfl, rfl⟩

/-- The samples of the configured timer in a history. -/
def offered : List Ev → List UInt8
  | [] => []
  | .sample true f r :: es => sampleByte f r :: offered es
  | _ :: es => offered es

/-- At most 2000 samples between two updates. `c` counts the activations so far, `k` the samples
since the last update; updates are those of the schedule of C53. -/
def Paced (c k : Nat) : List Ev → Prop
  | [] => True
  | .sample true _ _ :: es => k < 2000 ∧ Paced c (k + 1) es
  | .sample false _ _ :: es => Paced c k es
  | .tick _ :: es => Paced (c + 1) (if c % 65536 % 100 = 0 then 0 else k) es

theorem tick_drain (s : St) (a u : Bool) (s' : St) (h : tick s a = .ok (u, s')) :
    s'.stream = (if s.counter % 100 = 0 then s.stream.drop 2000 else s.stream) ∧
      s'.counter = s.counter + 1 := by
  unfold tick at h
  have hb : batchMax = 2000 := rfl
  by_cases hc : s.counter % 100 = 0
  · rw [if_pos hc] at h ⊢
    dsimp only at h
    split at h
    · cases hr : countLowHighTransitions (s.stream.take batchMax) with
      | mk f r =>
        rw [hr] at h
        dsimp only at h
        cases h1 : rpm f s.teeth with
        | error e => rw [h1] at h; cases h
        | ok vf =>
          cases h2 : rpm r s.teeth with
          | error e => rw [h1, h2] at h; cases h
          | ok vr =>
            rw [h1, h2] at h
            cases h
            cases a <;> exact ⟨rfl, rfl⟩
    · cases h; exact ⟨rfl, rfl⟩
  · rw [if_neg hc] at h ⊢
    cases h; exact ⟨rfl, rfl⟩

/-- **C52, no sample lost.** When at most 2000 samples arrive between two updates (the sampling
rate is 2 kHz and updates are at most a second apart), every sample offered is accepted and ends,
in order, in a batch or in the stream. -/
theorem C52_all_accepted : ∀ (es : List Ev) (l : Log) (c : Nat), l.st.teeth ≠ 0 →
    l.st.counter.toNat = c % 65536 → l.st.stream.length ≤ 2000 → Paced c l.st.stream.length es →
    ∃ l', logRun l es = .ok l' ∧ l'.accepted = l.accepted ++ offered es
  | [], l, _, _, _, _, _ => ⟨l, rfl, by simp [offered]⟩
  | .sample true f r :: es, l, c, ht, hc, hk, hp => by
    rw [logRun, logStep]
    have hs : sampleIsr l.st true f r =
        { l.st with stream := l.st.stream ++ [sampleByte f r] } := by
      have hcap : streamCap = 3999 := rfl
      rw [sampleIsr, if_pos rfl, if_pos (by omega)]
    have hlt := hp.1
    have hne : ¬ (l.st.stream ++ [sampleByte f r]).length = l.st.stream.length := by simp
    obtain ⟨l', h1, h2⟩ := C52_all_accepted es
      ⟨{ l.st with stream := l.st.stream ++ [sampleByte f r] },
        l.accepted ++ [sampleByte f r], l.batches⟩ c ht hc
      (by simp; omega) (by simpa using hp.2)
    refine ⟨l', ?_, by rw [h2]; simp [offered]⟩
    rw [hs]
    show logRun ⟨_, if (l.st.stream ++ [sampleByte f r]).length = l.st.stream.length then _ else _,
      _⟩ es = _
    rw [if_neg hne]
    exact h1
  | .sample false f r :: es, l, c, ht, hc, hk, hp => by
    rw [logRun, logStep]
    obtain ⟨l', h1, h2⟩ := C52_all_accepted es l c ht hc hk hp
    refine ⟨l', ?_, h2⟩
    show logRun ⟨l.st, if l.st.stream.length = l.st.stream.length then l.accepted else _, _⟩ es = _
    rw [if_pos rfl]
    exact h1
  | .tick a :: es, l, c, ht, hc, hk, hp => by
    obtain ⟨u, s', h1, h2, -⟩ := tick_stream l.st a ht
    obtain ⟨h3, h4⟩ := tick_drain l.st a u s' h1
    rw [logRun, logStep, h1]
    have hz : l.st.counter % 100 = 0 ↔ c % 65536 % 100 = 0 := by
      rw [← UInt16.toNat_inj, UInt16.toNat_mod, hc]; rfl
    have hlen : s'.stream.length = if c % 65536 % 100 = 0 then 0 else l.st.stream.length := by
      rw [h3]
      by_cases h : c % 65536 % 100 = 0
      · rw [if_pos h, if_pos (hz.2 h), List.length_drop]; omega
      · rw [if_neg h, if_neg (fun x => h (hz.1 x))]
    refine C52_all_accepted es _ (c + 1) (by show s'.teeth ≠ 0; rw [h2]; exact ht) ?_ ?_ ?_
    · show s'.counter.toNat = _
      rw [h4, UInt16.toNat_add, hc]
      show (c % 65536 + 1) % 65536 = _
      omega
    · show s'.stream.length ≤ 2000
      rw [hlen]; split <;> omega
    · show Paced (c + 1) s'.stream.length es
      rw [hlen]; exact hp

example : Paced 0 0 [.sample true false true, .tick true, .sample true true true] := by
  simp [Paced]

end Verif.Wheelspeed
