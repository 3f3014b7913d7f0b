import Verif.Model.Adc
import Verif.Spec.Adc
import Mathlib.Tactic.Ring
import Mathlib.Tactic.Linarith
import Mathlib.Tactic.SplitIfs
import Mathlib.Data.Int.ModEq

set_option autoImplicit false

/-!
# C48, C49, C68: converter readings
-/

namespace Verif.Adc
open AdcSpec

/-- `bufferCopy` inside the arrays. -/
theorem bufferCopy_eq (d s : Nat → UInt32) (off : Nat) : ∀ len, off + len ≤ 16 →
    bufferCopy d s off len = .ok (fun j => if off ≤ j ∧ j < off + len then s j else d j)
  | 0, _ => by
    simp only [bufferCopy, Nat.add_zero]
    congr 1; funext j
    rw [if_neg (by omega)]
  | len + 1, h => by
    have hm : maxChannels = 16 := rfl
    rw [bufferCopy, bufferCopy_eq d s off len (by omega)]
    show (get s (off + len) >>= fun v => put _ (off + len) v) = _
    rw [get, if_pos (by omega)]
    show put _ (off + len) (s (off + len)) = _
    rw [put, if_pos (by omega)]
    congr 1; funext j
    by_cases hj : j = off + len
    · subst hj; simp
    · rw [if_neg hj]
      by_cases h2 : off ≤ j ∧ j < off + len
      · rw [if_pos h2, if_pos (by omega)]
      · rw [if_neg h2, if_neg (by omega)]

/-- How the specification sees an event of the driver whose handle is `hd`. -/
def obs (hd : Nat) : Ev → Obs
  | .sample v => .sample v
  | .half h => if h = hd then .halfDone else .foreign
  | .cplt h => if h = hd then .sweepDone else .foreign

/-- The state `ADC_Init` leaves for `n` channels. -/
structure Fresh (s : St) (n hd : Nat) : Prop where
  dma : ∀ j, s.dma j = 0
  bufA : ∀ j, s.bufA j = 0
  bufB : ∀ j, s.bufB j = 0
  validA : s.validA = false
  validB : s.validB = false
  activeA : s.activeA = true
  halfLen : s.halfLen = n / 2
  cpltOff : s.cpltOff = n / 2
  cpltLen : s.cpltLen = n - n / 2
  num : s.numChannels.toNat = n
  handle : s.handle = hd
  bound : n ≤ 16

theorem init_fresh {s s' : St} {a : InitArgs} (h : init s a = (.ok, s')) :
    Fresh s' a.numChannelsUsed.toNat a.handle := by
  unfold init at h
  split at h
  · exact absurd (congrArg Prod.fst h) (by simp)
  split at h
  · exact absurd (congrArg Prod.fst h) (by simp)
  split at h
  · exact absurd (congrArg Prod.fst h) (by simp)
  split at h
  · exact absurd (congrArg Prod.fst h) (by simp)
  split at h
  · exact absurd (congrArg Prod.fst h) (by simp)
  dsimp only at h
  split at h
  · exact absurd (congrArg Prod.fst h) (by simp)
  split at h
  · exact absurd (congrArg Prod.fst h) (by simp)
  rename_i hb _ _ _ _ _
  have hs := (congrArg Prod.snd h).symm
  dsimp only at hs
  subst hs
  have hm : maxChannels = 16 := rfl
  constructor <;> first | rfl | (intro j; rfl) | skip
  · dsimp only; split <;> omega
  · omega

/-- What holds after `k` samples `S`, `h` first halves and `c` sweeps. `front` is the buffer
being filled and `back` the one being read. -/
structure Good (y : Sys) (n hd h c : Nat) (S : List UInt16) : Prop where
  halfLen : y.st.halfLen = n / 2
  cpltOff : y.st.cpltOff = n / 2
  cpltLen : y.st.cpltLen = n - n / 2
  num : y.st.numChannels.toNat = n
  handle : y.st.handle = hd
  pos : 0 < n
  bound : n ≤ 16
  k : y.k = S.length
  hc : h = c ∨ h = c + 1
  lo : c * n ≤ S.length
  lo' : h = c + 1 → c * n + n / 2 ≤ S.length
  hi : h = c → S.length ≤ c * n + n
  hi' : S.length ≤ c * n + n + n / 2
  dma : ∀ j v, S[j]? = some v → S.length ≤ j + n → y.st.dma (j % n) = v.toUInt32
  back : 0 < c → ∀ i < n, ∃ v, S[(c - 1) * n + i]? = some v ∧
    (if y.st.activeA then y.st.bufB else y.st.bufA) i = v.toUInt32
  front : h = c + 1 → ∀ i < n / 2, ∃ v, S[c * n + i]? = some v ∧
    (if y.st.activeA then y.st.bufA else y.st.bufB) i = v.toUInt32
  valid : (if y.st.activeA then y.st.validB else y.st.validA) = decide (0 < c)
  tailA : ∀ i, n ≤ i → y.st.bufA i = 0
  tailB : ∀ i, n ≤ i → y.st.bufB i = 0

theorem Fresh.good {s : St} {n hd : Nat} (f : Fresh s n hd) (hn : 0 < n) :
    Good ⟨s, 0⟩ n hd 0 0 [] where
  halfLen := f.halfLen
  cpltOff := f.cpltOff
  cpltLen := f.cpltLen
  num := f.num
  handle := f.handle
  pos := hn
  bound := f.bound
  k := rfl
  hc := .inl rfl
  lo := by simp
  lo' := by omega
  hi := by simp
  hi' := by simp
  dma := by simp
  back := by omega
  front := by omega
  valid := by simp [f.activeA, f.validB]
  tailA := fun i _ => f.bufA i
  tailB := fun i _ => f.bufB i

theorem getElem?_append_left' {S : List UInt16} {v : UInt16} {i : Nat} {w : UInt16}
    (h : S[i]? = some w) : (S ++ [v])[i]? = some w := by
  have hi : i < S.length := by
    rw [List.getElem?_eq_some_iff] at h; exact h.1
  rw [List.getElem?_append_left hi]; exact h

theorem good_sample {y : Sys} {n hd h c : Nat} {S : List UInt16} (g : Good y n hd h c S)
    (v : UInt16) (t : if S.length % n < n / 2 then S.length / n ≤ h else S.length / n ≤ c) :
    ∃ y', step wordHw y (.sample v) = .ok y' ∧ Good y' n hd h c (S ++ [v]) := by
  have hn := g.pos
  refine ⟨{ st := { y.st with dma := store wordHw y.st.dma (y.k % n) v }, k := y.k + 1 }, ?_, ?_⟩
  · simp only [step, wordHw, g.num, Bool.false_and, Bool.false_eq_true, if_false]
  have hdm := Nat.div_add_mod S.length n
  have hml := Nat.mod_lt S.length hn
  have hlen : (S ++ [v]).length = S.length + 1 := by simp
  have mono : ∀ a b : Nat, a ≤ b → n * a ≤ n * b := fun a b hab => Nat.mul_le_mul_left n hab
  have hup : (h = c → S.length < c * n + n) ∧ S.length < c * n + n + n / 2 := by
    split at t
    · rename_i hlt
      have := mono _ _ t
      rcases g.hc with rfl | rfl
      · have e : n * h = h * n := Nat.mul_comm _ _
        constructor <;> omega
      · have e : n * (c + 1) = c * n + n := by ring
        constructor <;> omega
    · rename_i hge
      have := mono _ _ t
      have e : n * c = c * n := Nat.mul_comm _ _
      constructor <;> omega
  exact
    { halfLen := g.halfLen, cpltOff := g.cpltOff, cpltLen := g.cpltLen, num := g.num
      handle := g.handle, pos := g.pos, bound := g.bound
      k := by rw [hlen]; exact congrArg (· + 1) g.k
      hc := g.hc
      lo := by have := g.lo; omega
      lo' := fun e => by have := g.lo' e; omega
      hi := fun e => by have := hup.1 e; omega
      hi' := by have := hup.2; omega
      dma := by
        intro j w hj hjl
        show (if j % n = y.k % n then v.toUInt32 else y.st.dma (j % n)) = _
        rw [g.k]
        by_cases hjS : j < S.length
        · have hw : S[j]? = some w := by rwa [List.getElem?_append_left hjS] at hj
          rw [if_neg, g.dma j w hw (by omega)]
          intro e
          have hlt : S.length - j < n := by omega
          have h1 : n ∣ S.length - j := (Nat.modEq_iff_dvd' (le_of_lt hjS)).1 e
          have := Nat.le_of_dvd (by omega) h1
          omega
        · have : j = S.length := by
            have := (List.getElem?_eq_some_iff.1 hj).1
            omega
          subst this
          rw [if_pos rfl]
          simp only [List.getElem?_append_right (Nat.le_refl _), Nat.sub_self,
            List.getElem?_cons_zero, Option.some.injEq] at hj
          rw [hj]
      back := fun hc i hi => by
        obtain ⟨w, hw, he⟩ := g.back hc i hi
        exact ⟨w, getElem?_append_left' hw, he⟩
      front := fun hc i hi => by
        obtain ⟨w, hw, he⟩ := g.front hc i hi
        exact ⟨w, getElem?_append_left' hw, he⟩
      valid := g.valid
      tailA := g.tailA
      tailB := g.tailB }

theorem dma_at {y : Sys} {n hd h c : Nat} {S : List UInt16} (g : Good y n hd h c S) (i : Nat)
    (hi : i < n) (h1 : c * n + i < S.length) (h2 : S.length ≤ c * n + i + n) :
    ∃ v, S[c * n + i]? = some v ∧ y.st.dma i = v.toUInt32 := by
  refine ⟨S[c * n + i], List.getElem?_eq_getElem h1, ?_⟩
  have := g.dma (c * n + i) _ (List.getElem?_eq_getElem h1) h2
  have e : (c * n + i) % n = i := by
    rw [Nat.add_comm, Nat.add_mul_mod_self_right, Nat.mod_eq_of_lt hi]
  rw [e] at this
  exact this

theorem good_half {y : Sys} {n hd h c : Nat} {S : List UInt16} (g : Good y n hd h c S)
    (t1 : h = c) (t2 : c * n + n / 2 ≤ S.length) :
    ∃ y', step wordHw y (.half hd) = .ok y' ∧ Good y' n hd (h + 1) c S := by
  have hb := g.bound
  have hhi := g.hi t1
  have hdma : ∀ i < n / 2, ∃ v, S[c * n + i]? = some v ∧ y.st.dma i = v.toUInt32 :=
    fun i hi => dma_at g i (by omega) (by omega) (by omega)
  cases ha : y.st.activeA
  · refine ⟨{ y with st := { y.st with bufB := fun j => if 0 ≤ j ∧ j < 0 + y.st.halfLen then y.st.dma j else y.st.bufB j } }, ?_, ?_⟩
    · rw [step, halfCallback, if_neg (by simp [g.handle]), if_neg (by simp [ha]),
        bufferCopy_eq _ _ _ _ (by rw [g.halfLen]; omega)]
      rfl
    exact
      { halfLen := g.halfLen, cpltOff := g.cpltOff, cpltLen := g.cpltLen, num := g.num
        handle := g.handle, pos := g.pos, bound := g.bound, k := g.k
        hc := by omega
        lo := g.lo, lo' := fun _ => t2, hi := by omega, hi' := g.hi'
        dma := g.dma
        back := by have := g.back; rw [ha] at this; simpa [ha] using this
        front := fun _ i hi => by
          obtain ⟨v, hv, he⟩ := hdma i hi
          refine ⟨v, hv, ?_⟩
          simp only [ha, Bool.false_eq_true, if_false, g.halfLen]
          rw [if_pos (by omega), he]
        valid := by have := g.valid; rw [ha] at this; simpa [ha] using this
        tailA := g.tailA
        tailB := fun i hi => by
          show (if 0 ≤ i ∧ i < 0 + y.st.halfLen then _ else _) = _
          rw [g.halfLen, if_neg (by omega)]; exact g.tailB i hi }
  · refine ⟨{ y with st := { y.st with bufA := fun j => if 0 ≤ j ∧ j < 0 + y.st.halfLen then y.st.dma j else y.st.bufA j } }, ?_, ?_⟩
    · rw [step, halfCallback, if_neg (by simp [g.handle]), if_pos (by simp [ha]),
        bufferCopy_eq _ _ _ _ (by rw [g.halfLen]; omega)]
      rfl
    exact
      { halfLen := g.halfLen, cpltOff := g.cpltOff, cpltLen := g.cpltLen, num := g.num
        handle := g.handle, pos := g.pos, bound := g.bound, k := g.k
        hc := by omega
        lo := g.lo, lo' := fun _ => t2, hi := by omega, hi' := g.hi'
        dma := g.dma
        back := by have := g.back; rw [ha] at this; simpa [ha] using this
        front := fun _ i hi => by
          obtain ⟨v, hv, he⟩ := hdma i hi
          refine ⟨v, hv, ?_⟩
          simp only [ha, if_true, g.halfLen]
          rw [if_pos (by omega), he]
        valid := by have := g.valid; rw [ha] at this; simpa [ha] using this
        tailA := fun i hi => by
          show (if 0 ≤ i ∧ i < 0 + y.st.halfLen then _ else _) = _
          rw [g.halfLen, if_neg (by omega)]; exact g.tailA i hi
        tailB := g.tailB }

theorem good_cplt {y : Sys} {n hd h c : Nat} {S : List UInt16} (g : Good y n hd h c S)
    (t1 : h = c + 1) (t2 : (c + 1) * n ≤ S.length) :
    ∃ y', step wordHw y (.cplt hd) = .ok y' ∧ Good y' n hd h (c + 1) S := by
  have hb := g.bound
  have hp := g.pos
  have hhi := g.hi'
  have e1 : (c + 1) * n = c * n + n := by ring
  have hdma : ∀ i < n, n / 2 ≤ i → ∃ v, S[c * n + i]? = some v ∧ y.st.dma i = v.toUInt32 :=
    fun i hi hi2 => dma_at g i (by omega) (by omega) (by omega)
  have hfr := g.front t1
  cases ha : y.st.activeA
  · rw [ha] at hfr
    refine ⟨{ y with st := { y.st with bufB := fun j => if y.st.cpltOff ≤ j ∧ j < y.st.cpltOff + y.st.cpltLen then y.st.dma j else y.st.bufB j, validB := true, activeA := true } }, ?_, ?_⟩
    · rw [step, cpltCallback, if_neg (by simp [g.handle]), if_neg (by simp [ha]),
        bufferCopy_eq _ _ _ _ (by rw [g.cpltOff, g.cpltLen]; omega)]
      rfl
    exact
      { halfLen := g.halfLen, cpltOff := g.cpltOff, cpltLen := g.cpltLen, num := g.num
        handle := g.handle, pos := g.pos, bound := g.bound, k := g.k
        hc := by omega
        lo := by omega
        lo' := by omega
        hi := fun _ => by omega
        hi' := by omega
        dma := g.dma
        back := fun _ i hi => by
          simp only [if_true, Nat.add_sub_cancel, g.cpltOff, g.cpltLen]
          by_cases hi2 : n / 2 ≤ i
          · obtain ⟨v, hv, he⟩ := hdma i hi hi2
            exact ⟨v, hv, by rw [if_pos (by omega), he]⟩
          · obtain ⟨v, hv, he⟩ := hfr i (by omega)
            exact ⟨v, hv, by rw [if_neg (by omega)]; exact he⟩
        front := by omega
        valid := by simp
        tailA := g.tailA
        tailB := fun i hi => by
          show (if y.st.cpltOff ≤ i ∧ i < y.st.cpltOff + y.st.cpltLen then _ else _) = _
          rw [g.cpltOff, g.cpltLen, if_neg (by omega)]; exact g.tailB i hi }
  · rw [ha] at hfr
    refine ⟨{ y with st := { y.st with bufA := fun j => if y.st.cpltOff ≤ j ∧ j < y.st.cpltOff + y.st.cpltLen then y.st.dma j else y.st.bufA j, validA := true, activeA := false } }, ?_, ?_⟩
    · rw [step, cpltCallback, if_neg (by simp [g.handle]), if_pos (by simp [ha]),
        bufferCopy_eq _ _ _ _ (by rw [g.cpltOff, g.cpltLen]; omega)]
      rfl
    exact
      { halfLen := g.halfLen, cpltOff := g.cpltOff, cpltLen := g.cpltLen, num := g.num
        handle := g.handle, pos := g.pos, bound := g.bound, k := g.k
        hc := by omega
        lo := by omega
        lo' := by omega
        hi := fun _ => by omega
        hi' := by omega
        dma := g.dma
        back := fun _ i hi => by
          simp only [Bool.false_eq_true, if_false, Nat.add_sub_cancel, g.cpltOff, g.cpltLen]
          by_cases hi2 : n / 2 ≤ i
          · obtain ⟨v, hv, he⟩ := hdma i hi hi2
            exact ⟨v, hv, by rw [if_pos (by omega), he]⟩
          · obtain ⟨v, hv, he⟩ := hfr i (by omega)
            exact ⟨v, hv, by rw [if_neg (by omega)]; exact he⟩
        front := by omega
        valid := by simp
        tailA := fun i hi => by
          show (if y.st.cpltOff ≤ i ∧ i < y.st.cpltOff + y.st.cpltLen then _ else _) = _
          rw [g.cpltOff, g.cpltLen, if_neg (by omega)]; exact g.tailA i hi
        tailB := g.tailB }

theorem run_good : ∀ (es : List Ev) {y : Sys} {n hd h c : Nat} {S : List UInt16},
    Good y n hd h c S → Timely n S.length h c (es.map (obs hd)) →
    ∃ y' h', run wordHw y es = .ok y' ∧
      Good y' n hd h' (c + completed (es.map (obs hd))) (S ++ samples (es.map (obs hd)))
  | [], y, n, hd, h, c, S, g, _ => ⟨y, h, rfl, by simpa [completed, samples] using g⟩
  | e :: es, y, n, hd, h, c, S, g, t => by
    cases e with
    | sample v =>
      obtain ⟨t1, t2⟩ := t
      obtain ⟨y', h1, g'⟩ := good_sample g v t1
      have t2' : Timely n (S ++ [v]).length h c (es.map (obs hd)) := by simpa using t2
      obtain ⟨y'', h', h2, g''⟩ := run_good es g' t2'
      refine ⟨y'', h', by rw [run, h1]; exact h2, ?_⟩
      have e1 : S ++ samples ((Ev.sample v :: es).map (obs hd)) =
          S ++ [v] ++ samples (es.map (obs hd)) := by simp [samples, obs]
      rw [e1]; exact g''
    | half k =>
      by_cases hk : k = hd
      · subst hk
        have t' : Timely n S.length h c (.halfDone :: es.map (obs k)) := by
          simpa [obs] using t
        obtain ⟨t1, t2, t3⟩ := t'
        obtain ⟨y', h1, g'⟩ := good_half g t1 t2
        obtain ⟨y'', h', h2, g''⟩ := run_good es g' t3
        refine ⟨y'', h', by rw [run, h1]; exact h2, ?_⟩
        simpa [obs, samples, completed] using g''
      · have t' : Timely n S.length h c (.foreign :: es.map (obs hd)) := by
          simpa [obs, hk] using t
        obtain ⟨y'', h', h2, g''⟩ := run_good es g t'
        refine ⟨y'', h', ?_, by simpa [obs, hk, samples, completed] using g''⟩
        rw [run, step, halfCallback, if_pos (by rw [g.handle]; exact hk)]
        exact h2
    | cplt k =>
      by_cases hk : k = hd
      · subst hk
        have t' : Timely n S.length h c (.sweepDone :: es.map (obs k)) := by
          simpa [obs] using t
        obtain ⟨t1, t2, t3⟩ := t'
        obtain ⟨y', h1, g'⟩ := good_cplt g t1 t2
        obtain ⟨y'', h', h2, g''⟩ := run_good es g' t3
        refine ⟨y'', h', by rw [run, h1]; exact h2, ?_⟩
        have e1 : c + completed ((Ev.cplt k :: es).map (obs k)) =
            c + 1 + completed (es.map (obs k)) := by
          simp [obs, completed]; omega
        rw [e1]
        simpa [obs, samples] using g''
      · have t' : Timely n S.length h c (.foreign :: es.map (obs hd)) := by
          simpa [obs, hk] using t
        obtain ⟨y'', h', h2, g''⟩ := run_good es g t'
        refine ⟨y'', h', ?_, by simpa [obs, hk, samples, completed] using g''⟩
        rw [run, step, cpltCallback, if_pos (by rw [g.handle]; exact hk)]
        exact h2

theorem low16 (v : UInt16) : (v.toUInt32 &&& 0xFFFF).toUInt16 = v := by
  apply UInt16.toNat_inj.1
  simp only [UInt32.toNat_toUInt16, UInt32.toNat_and, UInt16.toNat_toUInt32]
  have h := v.toNat_lt
  have e : (0xFFFF : UInt32).toNat = 2 ^ 16 - 1 := rfl
  rw [e, Nat.and_two_pow_sub_one_eq_mod]
  omega

/-- The value a `Good` state reports. -/
theorem good_get {y : Sys} {n hd h c : Nat} {S : List UInt16} (g : Good y n hd h c S)
    (ch : Nat) (hch : ch < n) :
    (c = 0 → adcGet y.st ch = .ok (.errNotReady, 0)) ∧
    (0 < c → ∃ v, S[(c - 1) * n + ch]? = some v ∧ adcGet y.st ch = .ok (.ok, v)) := by
  have hm : maxChannels = 16 := rfl
  have hb := g.bound
  have hn := g.num
  have hv := g.valid
  constructor
  · intro hc
    subst hc
    unfold adcGet
    rw [if_neg (by omega)]
    cases ha : y.st.activeA <;> simp [ha] at hv <;> simp [hv]
  · intro hc
    obtain ⟨v, hS, he⟩ := g.back hc ch hch
    refine ⟨v, hS, ?_⟩
    unfold adcGet
    rw [if_neg (by omega)]
    cases ha : y.st.activeA <;> simp [ha, hc] at hv <;> simp only [ha, Bool.false_eq_true, if_false, if_true] at he <;>
      simp only [hv, Bool.false_eq_true, if_false, if_true, get, if_pos (show ch < maxChannels by omega), he] <;>
      exact congrArg (fun x => Except.ok (Status.ok, x)) (low16 v)

/-- C48 for 32-bit transfers. After a successful initialisation and any timely history of
conversions and callbacks (for this or other converters), nothing is accessed out of bounds,
every configured channel reads as not ready until a sweep has been signalled complete, and
then as its sample in the sweep signalled last. That sweep is at most one and a half sweeps
behind the converter. Missing: the shipped DMA set-up (`C48_half_word_wrong`). -/
theorem C48_last_sweep_partial (s s' : St) (a : InitArgs) (es : List Ev)
    (hi : init s a = (.ok, s')) (hn : 0 < a.numChannelsUsed.toNat)
    (ht : Timely a.numChannelsUsed.toNat 0 0 0 (es.map (obs a.handle))) :
    ∃ y, run wordHw ⟨s', 0⟩ es = .ok y ∧
      (∀ ch < a.numChannelsUsed.toNat,
        let c := completed (es.map (obs a.handle))
        let S := samples (es.map (obs a.handle))
        (c = 0 → adcGet y.st ch = .ok (.errNotReady, 0)) ∧
        (0 < c → ∃ v, S[(c - 1) * a.numChannelsUsed.toNat + ch]? = some v ∧
          adcGet y.st ch = .ok (.ok, v))) ∧
      (samples (es.map (obs a.handle))).length ≤
        completed (es.map (obs a.handle)) * a.numChannelsUsed.toNat +
          a.numChannelsUsed.toNat + a.numChannelsUsed.toNat / 2 := by
  obtain ⟨y, h', hr, g⟩ := run_good es ((init_fresh hi).good hn) ht
  rw [Nat.zero_add, List.nil_append] at g
  exact ⟨y, hr, fun ch hch => good_get g ch hch, g.hi'⟩

/-- Twelve channels, as configured. -/
def args12 : InitArgs := ⟨true, 12, 12, true, true, 7, true, true⟩

/-- A complete sweep of samples `b + 1 … b + 12` with its callbacks in time. -/
def sweep (b : UInt16) : List Ev :=
  ([1, 2, 3, 4, 5, 6].map fun i => Ev.sample (b + i)) ++ [.half 7] ++
  ([7, 8, 9, 10, 11, 12].map fun i => Ev.sample (b + i)) ++ [.cplt 7]

/-- The value reported after a history (for the examples). -/
def reading (hw : Hw) (a : InitArgs) (es : List Ev) (ch : Nat) : C (Status × UInt16) :=
  run hw ⟨(init boot a).2, 0⟩ es >>= fun y => adcGet y.st ch

example : reading wordHw args12 (sweep 100 ++ sweep 200) 8 = .ok (.ok, 209) := by decide +kernel
-- half a sweep and a foreign callback later the reading is still the completed sweep's
example : reading wordHw args12 (sweep 100 ++ (sweep 200).take 7 ++ [.cplt 3]) 2 =
    .ok (.ok, 103) := by decide +kernel
-- a callback served late: the first half of the next sweep is already being stored
example : reading wordHw args12
    ((sweep 100).take 13 ++ [.sample 201, .sample 202, .cplt 7]) 0 = .ok (.ok, 101) := by
  decide +kernel
example : reading wordHw args12 ((sweep 100).take 13) 8 = .ok (.errNotReady, 0) := by
  decide +kernel
example : Timely 12 0 0 0 ((sweep 100 ++ sweep 200).map (obs 7)) := by
  simp [sweep, obs, Timely]

/-- C49 is false for every configured count: the channel number equal to the count is
accepted. It reads as a valid 0, or past the end of the array if all 16 are in use. -/
theorem C49_count_accepted (s s' : St) (a : InitArgs) (es : List Ev)
    (hi : init s a = (.ok, s')) (hn : 0 < a.numChannelsUsed.toNat)
    (ht : Timely a.numChannelsUsed.toNat 0 0 0 (es.map (obs a.handle)))
    (hc : 0 < completed (es.map (obs a.handle))) :
    ∃ y, run wordHw ⟨s', 0⟩ es = .ok y ∧
      adcGet y.st a.numChannelsUsed.toNat =
        if a.numChannelsUsed.toNat < 16 then .ok (.ok, 0) else .error .oobRead := by
  obtain ⟨y, h', hr, g⟩ := run_good es ((init_fresh hi).good hn) ht
  rw [Nat.zero_add, List.nil_append] at g
  refine ⟨y, hr, ?_⟩
  have hm : maxChannels = 16 := rfl
  have hv := g.valid
  have hA := g.tailA _ (Nat.le_refl _)
  have hB := g.tailB _ (Nat.le_refl _)
  unfold adcGet
  rw [g.num, if_neg (by omega)]
  cases ha : y.st.activeA <;> simp only [ha, Bool.false_eq_true, if_false, if_true, hc,
      decide_true] at hv <;>
    simp only [hv, Bool.false_eq_true, if_false, if_true, get, hm] <;>
    by_cases h16 : a.numChannelsUsed.toNat < 16
  · rw [if_pos h16, if_pos h16, hA]; rfl
  · rw [if_neg h16, if_neg h16]; rfl
  · rw [if_pos h16, if_pos h16, hB]; rfl
  · rw [if_neg h16, if_neg h16]; rfl

example : reading wordHw args12 (sweep 100) 12 = .ok (.ok, 0) := by decide +kernel

/-- C49 as far as it holds: every larger channel number is refused with 0 and every
configured channel is read inside the buffers, whatever the driver's state. Missing: the
channel equal to the count (`C49_count_accepted`). -/
theorem C49_refused_partial (s : St) (ch : Nat) :
    (s.numChannels.toNat < ch → adcGet s ch = .ok (.errInvalidChannel, 0)) ∧
    (ch < s.numChannels.toNat → s.numChannels.toNat ≤ 16 →
      ∃ r, adcGet s ch = .ok r ∧ (r.1 = .ok ∨ r = (.errNotReady, 0))) := by
  have hm : maxChannels = 16 := rfl
  constructor
  · intro h; rw [adcGet, if_pos h]
  · intro h h16
    unfold adcGet
    rw [if_neg (by omega)]
    cases s.activeA <;> cases s.validA <;> cases s.validB <;>
      simp only [Bool.false_eq_true, if_false, if_true, get,
        if_pos (show ch < maxChannels by omega)] <;>
      first | exact ⟨_, rfl, .inr rfl⟩ | exact ⟨_, rfl, .inl rfl⟩

example : adcGet (init boot args12).2 13 = .ok (.errInvalidChannel, 0) := by decide +kernel

/-! ### The shipped DMA set-up -/

/-- Words that 16-bit transfers never reach stay 0 in all three arrays. -/
structure Packed (y : Sys) (n : Nat) : Prop where
  num : y.st.numChannels.toNat = n
  pos : 0 < n
  bound : n ≤ 16
  halfLen : y.st.halfLen = n / 2
  cpltOff : y.st.cpltOff = n / 2
  cpltLen : y.st.cpltLen = n - n / 2
  dma : ∀ j, n ≤ 2 * j → y.st.dma j = 0
  bufA : ∀ j, n ≤ 2 * j → y.st.bufA j = 0
  bufB : ∀ j, n ≤ 2 * j → y.st.bufB j = 0

theorem packed_step (hw : Hw) (hh : hw.halfWord = true) {y : Sys} {n : Nat} (p : Packed y n)
    (e : Ev) : ∃ y', step hw y e = .ok y' ∧ Packed y' n := by
  have hp := p.pos
  have hb := p.bound
  cases e with
  | sample v =>
    rw [step]
    dsimp only
    split
    · exact ⟨y, rfl, p⟩
    · refine ⟨_, rfl, { p with dma := fun j hj => ?_ }⟩
      simp only [store, hh, if_true, p.num]
      have := Nat.mod_lt y.k hp
      rw [if_neg (by omega)]
      exact p.dma j hj
  | half h =>
    by_cases hk : h = y.st.handle
    · have e1 : halfCallback y.st h = .ok (if y.st.activeA
          then { y.st with bufA := fun j => if 0 ≤ j ∧ j < 0 + y.st.halfLen then y.st.dma j else y.st.bufA j }
          else { y.st with bufB := fun j => if 0 ≤ j ∧ j < 0 + y.st.halfLen then y.st.dma j else y.st.bufB j }) := by
        rw [halfCallback, if_neg (by simpa using hk),
          bufferCopy_eq _ _ _ _ (by rw [p.halfLen]; omega),
          bufferCopy_eq _ _ _ _ (by rw [p.halfLen]; omega)]
        split <;> rfl
      refine ⟨_, by rw [step, e1]; rfl, ?_⟩
      cases y.st.activeA
      · refine { p with bufB := fun j hj => ?_ }
        show (if _ then y.st.dma j else y.st.bufB j) = 0
        rw [p.dma j hj, p.bufB j hj, ite_self]
      · refine { p with bufA := fun j hj => ?_ }
        show (if _ then y.st.dma j else y.st.bufA j) = 0
        rw [p.dma j hj, p.bufA j hj, ite_self]
    · exact ⟨y, by rw [step, halfCallback, if_pos hk]; rfl, p⟩
  | cplt h =>
    by_cases hk : h = y.st.handle
    · have e1 : cpltCallback y.st h = .ok (if y.st.activeA
          then { y.st with bufA := fun j => if y.st.cpltOff ≤ j ∧ j < y.st.cpltOff + y.st.cpltLen then y.st.dma j else y.st.bufA j, validA := true, activeA := false }
          else { y.st with bufB := fun j => if y.st.cpltOff ≤ j ∧ j < y.st.cpltOff + y.st.cpltLen then y.st.dma j else y.st.bufB j, validB := true, activeA := true }) := by
        rw [cpltCallback, if_neg (by simpa using hk),
          bufferCopy_eq _ _ _ _ (by rw [p.cpltOff, p.cpltLen]; omega),
          bufferCopy_eq _ _ _ _ (by rw [p.cpltOff, p.cpltLen]; omega)]
        split <;> rfl
      refine ⟨_, by rw [step, e1]; rfl, ?_⟩
      cases y.st.activeA
      · refine { p with bufB := fun j hj => ?_ }
        show (if _ then y.st.dma j else y.st.bufB j) = 0
        rw [p.dma j hj, p.bufB j hj, ite_self]
      · refine { p with bufA := fun j hj => ?_ }
        show (if _ then y.st.dma j else y.st.bufA j) = 0
        rw [p.dma j hj, p.bufA j hj, ite_self]
    · exact ⟨y, by rw [step, cpltCallback, if_pos hk]; rfl, p⟩

theorem packed_run (hw : Hw) (hh : hw.halfWord = true) : ∀ (es : List Ev) {y : Sys} {n : Nat},
    Packed y n → ∃ y', run hw y es = .ok y' ∧ Packed y' n
  | [], y, _, p => ⟨y, rfl, p⟩
  | e :: es, _, _, p => by
    obtain ⟨y1, h1, p1⟩ := packed_step hw hh p e
    obtain ⟨y2, h2, p2⟩ := packed_run hw hh es p1
    exact ⟨y2, by rw [run, h1]; exact h2, p2⟩

/-- C48 is false with 16-bit transfers, as shipped: whatever the converter samples and
whenever the callbacks run, the upper half of the configured channels never reads anything
but 0. -/
theorem C48_half_word_wrong (hw : Hw) (hh : hw.halfWord = true) (s s' : St) (a : InitArgs)
    (es : List Ev) (hi : init s a = (.ok, s')) (hn : 0 < a.numChannelsUsed.toNat) :
    ∃ y, run hw ⟨s', 0⟩ es = .ok y ∧
      ∀ ch, a.numChannelsUsed.toNat ≤ 2 * ch → ch < a.numChannelsUsed.toNat →
        adcGet y.st ch = .ok (.errNotReady, 0) ∨ adcGet y.st ch = .ok (.ok, 0) := by
  have f := init_fresh hi
  obtain ⟨y, hr, p⟩ := packed_run hw hh es (y := ⟨s', 0⟩) (n := a.numChannelsUsed.toNat)
    ⟨f.num, hn, f.bound, f.halfLen, f.cpltOff, f.cpltLen, fun j _ => f.dma j,
      fun j _ => f.bufA j, fun j _ => f.bufB j⟩
  refine ⟨y, hr, fun ch h1 h2 => ?_⟩
  have hm : maxChannels = 16 := rfl
  have hb := p.bound
  unfold adcGet
  rw [p.num, if_neg (by omega)]
  have hA := p.bufA ch h1
  have hB := p.bufB ch h1
  cases y.st.activeA <;> cases y.st.validA <;> cases y.st.validB <;>
    simp only [Bool.false_eq_true, if_false, if_true, get, hA, hB,
      if_pos (show ch < maxChannels by omega)] <;>
    first | exact .inl rfl | exact .inr rfl | exact .inl trivial

/-- C68 is false: with the shipped configuration no pedal or brake channel (8 to 11 of 12,
deviceMapping.h 28-33) ever reads anything but 0, whatever is sampled. -/
theorem C68_pedals_read_zero (s s' : St) (a : InitArgs) (es : List Ev)
    (hi : init s a = (.ok, s')) (hn : a.numChannelsUsed = 12) :
    ∃ y, run shippedHw ⟨s', 0⟩ es = .ok y ∧
      ∀ ch, 8 ≤ ch → ch ≤ 11 →
        adcGet y.st ch = .ok (.errNotReady, 0) ∨ adcGet y.st ch = .ok (.ok, 0) := by
  have e : a.numChannelsUsed.toNat = 12 := by rw [hn]; rfl
  obtain ⟨y, hr, h⟩ := C48_half_word_wrong shippedHw rfl s s' a es hi (by omega)
  exact ⟨y, hr, fun ch h1 h2 => h ch (by omega) (by omega)⟩

example : reading shippedHw args12 (sweep 100) 8 = .ok (.ok, 0) := by decide +kernel
-- the other channels read the sample of another channel
example : reading ⟨true, false⟩ args12 (sweep 100 ++ sweep 200) 1 = .ok (.ok, 203) := by
  decide +kernel

/-- The events that remain when transfers stop after `n` samples. -/
def oneShotEvents (n : Nat) : Nat → List Ev → List Ev
  | _, [] => []
  | k, .sample v :: es =>
    if n ≤ k then oneShotEvents n k es else .sample v :: oneShotEvents n (k + 1) es
  | k, e :: es => e :: oneShotEvents n k es

theorem callbacks_num {s s' : St} {h : Nat} :
    (halfCallback s h = .ok s' → s'.numChannels = s.numChannels) ∧
    (cpltCallback s h = .ok s' → s'.numChannels = s.numChannels) := by
  constructor <;> intro e
  · unfold halfCallback at e
    split at e
    · cases e; rfl
    split at e
    · cases hb : bufferCopy s.bufA s.dma 0 s.halfLen <;> rw [hb] at e <;> cases e; rfl
    · cases hb : bufferCopy s.bufB s.dma 0 s.halfLen <;> rw [hb] at e <;> cases e; rfl
  · unfold cpltCallback at e
    split at e
    · cases e; rfl
    split at e
    · cases hb : bufferCopy s.bufA s.dma s.cpltOff s.cpltLen <;> rw [hb] at e <;> cases e; rfl
    · cases hb : bufferCopy s.bufB s.dma s.cpltOff s.cpltLen <;> rw [hb] at e <;> cases e; rfl

theorem run_oneShot (b : Bool) : ∀ (es : List Ev) (y : Sys),
    run ⟨b, true⟩ y es = run ⟨b, false⟩ y (oneShotEvents y.st.numChannels.toNat y.k es)
  | [], _ => rfl
  | .sample v :: es, y => by
    rw [run, step, oneShotEvents]
    by_cases h : y.st.numChannels.toNat ≤ y.k
    · simp only [h, decide_true, Bool.true_and, if_true]
      exact run_oneShot b es y
    · simp only [h, decide_false, Bool.and_false, Bool.false_eq_true, if_false]
      rw [run, step]
      simp only [Bool.false_and, Bool.false_eq_true, if_false]
      exact run_oneShot b es _
  | .half k :: es, y => by
    rw [run, oneShotEvents, run]
    · rw [step, step]
      cases hc : halfCallback y.st k with
      | error u => rfl
      | ok s' =>
        have := run_oneShot b es { y with st := s' }
        rw [callbacks_num.1 hc] at this
        exact this
    · intro v; simp
  | .cplt k :: es, y => by
    rw [run, oneShotEvents, run]
    · rw [step, step]
      cases hc : cpltCallback y.st k with
      | error u => rfl
      | ok s' =>
        have := run_oneShot b es { y with st := s' }
        rw [callbacks_num.2 hc] at this
        exact this
    · intro v; simp

theorem oneShot_samples (n hd : Nat) : ∀ (es : List Ev) (k : Nat), k ≤ n →
    (samples ((oneShotEvents n k es).map (obs hd))).length ≤ n - k ∧
    samples ((oneShotEvents n k es).map (obs hd)) <+: samples (es.map (obs hd))
  | [], k, h => by simp [oneShotEvents, samples]
  | .sample v :: es, k, h => by
    rw [oneShotEvents]
    split
    · rename_i hk
      have := oneShot_samples n hd es k h
      have h0 : (samples ((oneShotEvents n k es).map (obs hd))) = [] :=
        List.eq_nil_of_length_eq_zero (by omega)
      rw [h0]
      exact ⟨by simp, List.nil_prefix⟩
    · have := oneShot_samples n hd es (k + 1) (by omega)
      simp only [List.map_cons, obs, samples, List.length_cons]
      exact ⟨by omega, (List.prefix_cons_inj v).2 this.2⟩
  | .half j :: es, k, h => by
    rw [oneShotEvents]
    · have := oneShot_samples n hd es k h
      simp only [List.map_cons, obs]
      split <;> exact this
    · intro v; simp
  | .cplt j :: es, k, h => by
    rw [oneShotEvents]
    · have := oneShot_samples n hd es k h
      simp only [List.map_cons, obs]
      split <;> exact this
    · intro v; simp

/-- C68 is false for a second reason, even with 32-bit transfers: with
`DMAContinuousRequests` off, every reading for ever after is the sample of the very first
sweep, whatever is converted later. Timeliness is asked of the transfers that take place. -/
theorem C68_one_shot_frozen (s s' : St) (a : InitArgs) (es : List Ev)
    (hi : init s a = (.ok, s')) (hn : 0 < a.numChannelsUsed.toNat)
    (ht : Timely a.numChannelsUsed.toNat 0 0 0
      ((oneShotEvents a.numChannelsUsed.toNat 0 es).map (obs a.handle))) :
    ∃ y, run ⟨false, true⟩ ⟨s', 0⟩ es = .ok y ∧
      ∀ ch < a.numChannelsUsed.toNat,
        adcGet y.st ch = .ok (.errNotReady, 0) ∨
        ∃ v, (samples (es.map (obs a.handle)))[ch]? = some v ∧ adcGet y.st ch = .ok (.ok, v) := by
  have f := init_fresh hi
  obtain ⟨y, h', hr, g⟩ := run_good _ (f.good hn) ht
  rw [Nat.zero_add, List.nil_append] at g
  refine ⟨y, ?_, fun ch hch => ?_⟩
  · rw [run_oneShot]; dsimp only; rw [f.num]; exact hr
  obtain ⟨hlen, hpre⟩ := oneShot_samples a.numChannelsUsed.toNat a.handle es 0 (Nat.zero_le _)
  have hlo := g.lo
  obtain ⟨h0, h1⟩ := good_get g ch hch
  rcases Nat.eq_zero_or_pos (completed ((oneShotEvents a.numChannelsUsed.toNat 0 es).map
    (obs a.handle))) with hc | hc
  · exact .inl (h0 hc)
  · obtain ⟨v, hv, he⟩ := h1 hc
    have hc1 : completed ((oneShotEvents a.numChannelsUsed.toNat 0 es).map (obs a.handle)) = 1 := by
      by_contra hne
      have := Nat.mul_le_mul_right a.numChannelsUsed.toNat
        (show 2 ≤ completed ((oneShotEvents a.numChannelsUsed.toNat 0 es).map (obs a.handle)) by omega)
      omega
    rw [hc1] at hv
    refine .inr ⟨v, ?_, he⟩
    obtain ⟨t, ht⟩ := hpre
    rw [← ht]
    have hl := (List.getElem?_eq_some_iff.1 hv).1
    rw [List.getElem?_append_left (by omega)]
    simpa using hv

example : reading ⟨false, true⟩ args12
    (sweep 100 ++ (sweep 200).filter fun e => match e with | .sample _ => true | _ => false) 8 =
    .ok (.ok, 109) := by decide +kernel

end Verif.Adc
