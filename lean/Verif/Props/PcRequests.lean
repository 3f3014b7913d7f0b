import Verif.Model.PcRequests
import Verif.Props.MsgFrame

set_option autoImplicit false

/-!
# C35, C36, C67: requests from the PC
-/

namespace Verif.PcReq
open MsgFrame FrameSpec

/-- Between batches. -/
structure Ready (s : Dec) : Prop where
  inv : Inv s
  len : s.msgLen = reqLen
  few : (s.start ≤ 1 ∧ s.stop - s.start ≤ 18) ∨ (s.stop - s.start ≤ 7 ∧ s.stop ≤ 27)

theorem batch_spec (crc : CrcUnit) {s : Dec} (h : Ready s) {b : List UInt8} (hb : b.length ≤ 8) :
    ∃ m s', batchStep crc s b = .ok (true, m, s') ∧ Ready s' ∧
      (∀ x, m = some x → ∃ pre p, content s ++ b = pre ++ x ++ content s' ∧
        Valid (fun z => (crc p z).getD 0) reqLen x) ∧
      (m = none → content s' <:+ content s ++ b) ∧
      (∀ f, crc = unit f → Parse (Valid f reqLen) reqLen (content s ++ b) m.toList (content s')) := by
  have h0 := h.inv.ordered; have h1 := h.inv.space; have h2 := h.few; have h3 := h.len
  have hbl : bufLen = 1024 := rfl
  obtain ⟨r, s1, e1, e2, e3, -, e5, e6⟩ := recvBytes_spec h.inv b
  have hr : r = true := e6.mpr (by omega)
  subst hr
  obtain ⟨c1, c2, c3⟩ := e5 rfl
  obtain ⟨r, s2, g1, g2, g3, g4, g5⟩ := recvMsg_spec crc e2
  have hl1 : s1.msgLen = reqLen := e3.trans h3
  have hl2 : s2.msgLen = reqLen := g3.trans hl1
  have hrl : reqLen = 19 := rfl
  have ho1 := e2.ordered
  have ho2 := g2.ordered
  unfold batchStep
  simp only [e1, g1]
  cases r with
  | none =>
    obtain ⟨k1, k2, k3, k4⟩ := g4 rfl
    rw [content_length, hl1] at k1
    refine ⟨none, s2, rfl, ⟨g2, hl2, ?_⟩, by simp, fun _ => by rw [← c1]; exact k3, ?_⟩
    · left; omega
    · rintro f rfl
      have := k4 (Valid f s1.msgLen) (fun p => Iff.rfl)
      rw [hl1, c1] at this
      exact this
  | some off =>
    obtain ⟨k1, k2, k3, k4, k5, ⟨pre, k6⟩, k7⟩ := g5 off rfl
    refine ⟨_, s2, rfl, ⟨g2, hl2, ?_⟩, ?_, by simp, ?_⟩
    · right; omega
    · intro x hx
      injection hx with hx
      subst hx
      refine ⟨pre, off, ?_, ?_⟩
      · rw [← c1, k6, hl1, hl2]
      · have := k5
        unfold MsgFrame.Acc at this
        rw [k4, hl2, ← hl1]
        exact this
    · rintro f rfl
      have hd : Parse (Valid f s1.msgLen) s1.msgLen (content s2) [] (content s2) :=
        Parse.done (by rw [content_length]; omega)
      have := k7 (Valid f s1.msgLen) (fun p => Iff.rfl) _ _ hd
      rw [hl1, c1] at this
      rw [hl2]
      exact this

/-- Start: a decoder initialised for requests (pcinterface.c 142-145). -/
def initRun (d : Nat → UInt8) : Run := ⟨⟨reqLen, 0, 0, bufLen, d⟩, 0, [], []⟩

theorem initRun_ready (d : Nat → UInt8) : Ready (initRun d).dec :=
  ⟨⟨le_rfl, rfl, show 6 ≤ 19 by decide, show 19 ≤ 1024 by decide⟩, rfl,
    Or.inl ⟨show 0 ≤ 1 by decide, show 0 - 0 ≤ 18 by decide⟩⟩

theorem init_eq (d : Nat → UInt8) : init reqLen d = some (initRun d).dec := rfl

/-- **C35, never wedges.** For every sequence of batches of at most 8 bytes, every
behaviour of the CRC unit: no access outside the decoder's buffer, no batch
refused, and fewer than 19 bytes pending after every batch. -/
theorem C35_never_wedges (d : Nat → UInt8) (bs : List Batch) (hb : ∀ b ∈ bs, b.bytes.length ≤ 8) :
    ∃ r, bs.foldlM step (initRun d) = .ok r ∧ r.refused = 0 ∧ (content r.dec).length < 19 := by
  suffices H : ∀ r : Run, Ready r.dec → r.refused = 0 →
      ∃ r', bs.foldlM step r = .ok r' ∧ r'.refused = 0 ∧ Ready r'.dec by
    obtain ⟨r, h1, h2, h3⟩ := H _ (initRun_ready d) rfl
    refine ⟨r, h1, h2, ?_⟩
    rw [content_length]
    have := h3.few
    omega
  induction bs with
  | nil => intro r h1 h2; exact ⟨r, rfl, h2, h1⟩
  | cons b bs ih =>
    intro r h1 h2
    obtain ⟨m, s', e1, e2, -⟩ := batch_spec b.crc h1 (hb b (by simp))
    rw [List.foldlM_cons]
    simp only [step, e1]
    exact ih (fun b' h' => hb b' (List.mem_cons_of_mem _ h')) _ e2 (by simpa using h2)

/-- **C35, no request lost.** When the CRC unit computes `f`, after every batch the
messages handled so far are exactly the greedy parse of the bytes so far: a valid
frame is handled in the very batch that completes it. -/
theorem C35_no_request_lost (f : List UInt8 → UInt32) (d : Nat → UInt8) (bs : List Batch)
    (hb : ∀ b ∈ bs, b.bytes.length ≤ 8) (hf : ∀ b ∈ bs, b.crc = unit f) :
    ∃ r, bs.foldlM step (initRun d) = .ok r ∧
      Parse (Valid f 19) 19 (bs.flatMap (·.bytes)) r.handled (content r.dec) := by
  suffices H : ∀ r : Run, Ready r.dec → ∃ r' ms, bs.foldlM step r = .ok r' ∧
      r'.handled = r.handled ++ ms ∧
      Parse (Valid f 19) 19 (content r.dec ++ bs.flatMap (·.bytes)) ms (content r'.dec) by
    obtain ⟨r, ms, h1, h2, h3⟩ := H _ (initRun_ready d)
    refine ⟨r, h1, ?_⟩
    rw [h2]
    exact h3
  induction bs with
  | nil =>
    intro r h1
    refine ⟨r, [], rfl, by simp, ?_⟩
    rw [List.flatMap_nil, List.append_nil]
    apply Parse.done
    rw [content_length]
    have := h1.few
    omega
  | cons b bs ih =>
    intro r h1
    obtain ⟨m, s', e1, e2, -, -, e5⟩ := batch_spec b.crc h1 (hb b (by simp))
    have p1 := e5 f (hf b (by simp))
    rw [List.foldlM_cons]
    simp only [step, e1]
    obtain ⟨r', ms, h2, h3, h4⟩ := ih (fun b' h' => hb b' (List.mem_cons_of_mem _ h'))
      (fun b' h' => hf b' (List.mem_cons_of_mem _ h')) ⟨s', r.refused, r.handled ++ m.toList,
        r.effects ++ (m.toList.flatMap (handleMessage b.enabled))⟩ e2
    refine ⟨r', m.toList ++ ms, h2, by rw [h3, List.append_assoc], ?_⟩
    have := p1.append h4
    rw [List.flatMap_cons, ← List.append_assoc]
    exact this

/-! ## C36 -/

/-- Destination address of a frame, most significant byte first. -/
def addrOf (m : List UInt8) : Nat := (m.getD 1 0).toNat * 256 + (m.getD 2 0).toNat

/-- Function code of a frame. -/
def funcOf (m : List UInt8) : Nat := (m.getD 3 0).toNat * 256 + (m.getD 4 0).toNat

/-- Data byte `i` of a request. -/
def dataOf (m : List UInt8) (i : Nat) : UInt8 := m.getD (5 + i) 0

theorem word_toNat (m : List UInt8) (i : Nat) :
    (word m i).toNat = (m.getD i 0).toNat * 256 + (m.getD (i + 1) 0).toNat := by
  unfold word
  generalize m.getD i 0 = a
  generalize m.getD (i + 1) 0 = b
  have ha := a.toNat_lt; have hb := b.toNat_lt
  have : ((0 : UInt16) ||| (a.toUInt16 <<< 8)) ||| b.toUInt16 = UInt16.ofNat (a.toNat * 256 + b.toNat) := by
    apply UInt16.toNat_inj.mp
    simp only [UInt16.toNat_or, UInt16.toNat_shiftLeft, UInt8.toNat_toUInt16, UInt16.toNat_ofNat']
    have e : (0 : UInt16).toNat = 0 := rfl
    have e8 : (8 : UInt16).toNat % 16 = 8 := rfl
    rw [e, e8, Nat.zero_or, Nat.shiftLeft_eq, Nat.mod_eq_of_lt (by omega), Nat.mod_eq_of_lt (by omega)]
    rw [show a.toNat * 2 ^ 8 = 2 ^ 8 * a.toNat by omega, ← Nat.two_pow_add_eq_or_of_lt (by omega : b.toNat < 2 ^ 8)]
    omega
  rw [this, UInt16.toNat_ofNat']
  omega

theorem word_eq_iff (m : List UInt8) (i : Nat) (v : UInt16) :
    word m i = v ↔ (m.getD i 0).toNat * 256 + (m.getD (i + 1) 0).toNat = v.toNat := by
  rw [← UInt16.toNat_inj, word_toNat]

/-- The effects a request asks for, from the protocol description. -/
inductive Asks (m : List UInt8) : List Eff → Prop
  | sdc : funcOf m = 0x101 → Asks m [.ecuError (decide (dataOf m 7 ≠ 0))]
  | pdm : funcOf m = 0x102 → Asks m
      [.power 0 (decide (dataOf m 2 ≠ 0)), .power 1 (decide (dataOf m 3 ≠ 0)),
       .power 2 (decide (dataOf m 4 ≠ 0)), .power 3 (decide (dataOf m 5 ≠ 0)),
       .power 4 (decide (dataOf m 6 ≠ 0)), .power 5 (decide (dataOf m 7 ≠ 0))]
  | text : funcOf m = 0x9 → Asks m [.terminal ((m.drop 5).take 8)]
  | other : funcOf m ≠ 0x101 → funcOf m ≠ 0x102 → funcOf m ≠ 0x9 → Asks m []

theorem bne_zero (a : UInt8) : (a != 0) = decide (a ≠ 0) := by
  by_cases h : a = 0 <;> simp [h]

/-- **C36.** A frame has an effect only with control enabled, the request length
and the ECU's address; then the effects are those its function and data ask for. -/
theorem C36_effects (en : Bool) (m : List UInt8) :
    (en = true ∧ m.length = 19 ∧ addrOf m = 1 → Asks m (handleMessage en m)) ∧
    (¬ (en = true ∧ m.length = 19 ∧ addrOf m = 1) → handleMessage en m = []) := by
  have hrl : reqLen = 19 := rfl
  constructor
  · rintro ⟨rfl, hl, ha⟩
    have ha' : word m 1 = 1 := (word_eq_iff m 1 1).mpr ha
    unfold handleMessage
    rw [if_neg (by simp), if_neg (by rw [hrl]; exact fun h => h hl), if_neg (by rw [ha']; simp)]
    have e9 : (word m 3 = 0x9) ↔ funcOf m = 9 := word_eq_iff m 3 9
    have e101 : (word m 3 = 0x101) ↔ funcOf m = 0x101 := word_eq_iff m 3 0x101
    have e102 : (word m 3 = 0x102) ↔ funcOf m = 0x102 := word_eq_iff m 3 0x102
    split_ifs with h1 h2 h3
    · rw [hl]; exact .text (e9.mp h1)
    · unfold testSdc; rw [bne_zero]; exact .sdc (e101.mp h2)
    · have : testPdm m = _ := rfl
      have hp := Asks.pdm (e102.mp h3)
      unfold testPdm
      simp only [bne_zero]
      exact hp
    · exact .other (fun h => h2 (e101.mpr h)) (fun h => h3 (e102.mpr h)) (fun h => h1 (e9.mpr h))
  · intro h
    unfold handleMessage
    split_ifs with h1 h2 h3 h4 h5 h6 <;> try rfl
    all_goals
      exfalso
      apply h
      refine ⟨by simpa using h1, by simpa [hrl] using h2, ?_⟩
      exact (word_eq_iff m 1 1).mp (by simpa using h3)

/-- **C36, provenance.** Every effect of every run comes from a valid, addressed
request frame that was received contiguously, while control was enabled. -/
theorem C36_provenance (d : Nat → UInt8) (bs : List Batch) (hb : ∀ b ∈ bs, b.bytes.length ≤ 8) :
    ∃ r, bs.foldlM step (initRun d) = .ok r ∧ ∀ e ∈ r.effects, ∃ m, m <:+: bs.flatMap (·.bytes) ∧
      addrOf m = 1 ∧ (∃ es, Asks m es ∧ e ∈ es) ∧
      ∃ b ∈ bs, b.enabled = true ∧ ∃ p, Valid (fun z => (b.crc p z).getD 0) 19 m := by
  suffices H : ∀ (r : Run) (acc : List UInt8), Ready r.dec → content r.dec <:+ acc →
      ∃ r' es, bs.foldlM step r = .ok r' ∧ r'.effects = r.effects ++ es ∧
        ∀ e ∈ es, ∃ m, m <:+: acc ++ bs.flatMap (·.bytes) ∧
          addrOf m = 1 ∧ (∃ es, Asks m es ∧ e ∈ es) ∧
          ∃ b ∈ bs, b.enabled = true ∧ ∃ p, Valid (fun z => (b.crc p z).getD 0) 19 m by
    obtain ⟨r, es, h1, h2, h3⟩ := H _ [] (initRun_ready d) List.nil_suffix
    refine ⟨r, h1, ?_⟩
    rw [h2]
    exact h3
  induction bs with
  | nil => intro r acc h1 _; exact ⟨r, [], rfl, by simp, by simp⟩
  | cons b bs ih =>
    intro r acc h1 h2
    obtain ⟨m, s', e1, e2, e3, e4, -⟩ := batch_spec b.crc h1 (hb b (by simp))
    rw [List.foldlM_cons]
    simp only [step, e1]
    obtain ⟨pa, hpa⟩ := h2
    have hsuf : content s' <:+ acc ++ b.bytes := by
      cases m with
      | none =>
        obtain ⟨pb, hpb⟩ := e4 rfl
        exact ⟨pa ++ pb, by rw [← hpa, List.append_assoc, hpb, List.append_assoc]⟩
      | some x =>
        obtain ⟨pre, p, hx, -⟩ := e3 x rfl
        exact ⟨pa ++ pre ++ x, by rw [← hpa, List.append_assoc, List.append_assoc, List.append_assoc, hx]; simp⟩
    obtain ⟨r', es, g1, g2, g3⟩ := ih (fun b' h' => hb b' (List.mem_cons_of_mem _ h'))
      ⟨s', r.refused, r.handled ++ m.toList, r.effects ++ (m.toList.flatMap (handleMessage b.enabled))⟩
      (acc ++ b.bytes) e2 hsuf
    refine ⟨r', m.toList.flatMap (handleMessage b.enabled) ++ es, g1, by rw [g2, List.append_assoc], ?_⟩
    intro e he
    rcases List.mem_append.mp he with h | h
    · cases m with
      | none => simp at h
      | some x =>
        obtain ⟨pre, p, hx, hv⟩ := e3 x rfl
        simp only [Option.toList_some, List.flatMap_cons, List.flatMap_nil, List.append_nil] at h
        by_cases hc : b.enabled = true ∧ x.length = 19 ∧ addrOf x = 1
        · refine ⟨x, ?_, hc.2.2, ⟨_, (C36_effects b.enabled x).1 hc, h⟩, b, by simp, hc.1, p, hv⟩
          refine ⟨pa ++ pre, content s' ++ bs.flatMap (·.bytes), ?_⟩
          rw [List.flatMap_cons, ← List.append_assoc acc, ← hpa, List.append_assoc pa (content r.dec), hx]
          simp
        · rw [(C36_effects b.enabled x).2 hc] at h
          simp at h
    · obtain ⟨m', k1, k3, k4, b', k5, k6⟩ := g3 e h
      exact ⟨m', by rw [List.flatMap_cons, ← List.append_assoc]; exact k1, k3, k4, b',
        List.mem_cons_of_mem _ k5, k6⟩

/-- A concrete run: an SDC request split over three batches asserts the ECU error. -/
example : ((([⟨forged.take 8, unit fun _ => 0, true⟩, ⟨(forged.drop 8).take 8, unit fun _ => 0, true⟩,
    ⟨forged.drop 16, unit fun _ => 0, true⟩] : List Batch).foldlM step (initRun fun _ => 0)).map (·.effects)) =
    .ok [.ecuError true] := rfl

/-! ## C67: two ports, one stream -/

/-- Chunks as the receive interrupts of the two ports append them to the one
stream buffer (pcinterface.c 187-190; uart.c receive callback): the port and the
bytes. -/
abbrev Chunks := List (Bool × List UInt8)

/-- What one port received. -/
def portStream (p : Bool) (cs : Chunks) : List UInt8 := (cs.filter (·.1 == p)).flatMap (·.2)

/-- What the request handler reads. -/
def sharedStream (cs : Chunks) : List UInt8 := cs.flatMap (·.2)

/-- C67 in full: the requests handled include every request the greedy parse of
either port's own stream finds. -/
def PortsIndependent : Prop :=
  ∀ (f : List UInt8 → UInt32) (d : Nat → UInt8) (cs : Chunks) (bs : List Batch),
    (∀ b ∈ bs, b.bytes.length ≤ 8 ∧ b.crc = unit f) → bs.flatMap (·.bytes) = sharedStream cs →
    ∃ r, bs.foldlM step (initRun d) = .ok r ∧
      ∀ p ms rest, Parse (Valid f 19) 19 (portStream p cs) ms rest → ∀ m ∈ ms, m ∈ r.handled

/-- Cut into batches of 8. -/
def batches (f : List UInt8 → UInt32) (l : List UInt8) : List Batch :=
  ((List.range ((l.length + 7) / 8)).map fun i => (l.drop (8 * i)).take 8).map (⟨·, unit f, true⟩)

/-- Port A receives a request in two chunks, port B noise in between. -/
def interleaved : Chunks :=
  [(false, forged.take 10), (true, [0x55]), (false, forged.drop 10)]

/-- **C67 is false.** One byte received on one port while a request arrives on the
other makes the request vanish. -/
theorem C67_ports_interfere : ¬ PortsIndependent := by
  intro h
  obtain ⟨r, h1, h2⟩ := h (fun _ => 0) (fun _ => 0) interleaved
    (batches (fun _ => 0) (sharedStream interleaved)) (by
      intro b hb
      unfold batches at hb
      rw [List.mem_map] at hb
      obtain ⟨l, hl, rfl⟩ := hb
      rw [List.mem_map] at hl
      obtain ⟨i, -, rfl⟩ := hl
      exact ⟨by simp, rfl⟩) (by decide +kernel)
  have hr : ((batches (fun _ => 0) (sharedStream interleaved)).foldlM step (initRun fun _ => 0)).map
      (·.handled) = .ok [] := by decide +kernel
  rw [h1] at hr
  have hr' : r.handled = [] := by
    simpa [Except.map] using hr
  have hp : Parse (Valid (fun _ => 0) 19) 19 (portStream false interleaved) [forged] [] := by
    have e : portStream false interleaved = forged := rfl
    rw [e]
    have hv : Valid (fun _ => 0) 19 forged := ⟨rfl, rfl, rfl, rfl, rfl⟩
    have : forged = forged.take 19 := rfl
    have hh := Parse.hit (V := Valid (fun _ => 0) 19) (L := 19) (l := forged) (ms := []) (r := [])
      (by decide) hv (Parse.done (by decide))
    exact hh
  have := h2 false _ _ hp forged (by simp)
  rw [hr'] at this
  exact absurd this (by simp)

/-- **C67, what holds.** A valid request contiguous in the shared stream is handled
unless it overlaps an earlier frame that was handled; so with one port silent, or
chunks that never split a request, nothing is lost. -/
theorem C67_contiguous_partial (f : List UInt8 → UInt32) (d : Nat → UInt8) (cs : Chunks) (bs : List Batch)
    (hb : ∀ b ∈ bs, b.bytes.length ≤ 8 ∧ b.crc = unit f) (hs : bs.flatMap (·.bytes) = sharedStream cs) :
    ∃ r, bs.foldlM step (initRun d) = .ok r ∧
      ∀ pre m post, sharedStream cs = pre ++ m ++ post → Valid f 19 m →
        (∀ q, q < pre.length → pre.length < q + 19 → ¬ Valid f 19 (((sharedStream cs).drop q).take 19)) →
        m ∈ r.handled := by
  obtain ⟨r, h1, h2⟩ := C35_no_request_lost f d bs (fun b h => (hb b h).1) (fun b h => (hb b h).2)
  refine ⟨r, h1, ?_⟩
  intro pre m post he hv hno
  rw [hs] at h2
  obtain ⟨qs, e1, -, e3, e4⟩ := C32_parse_positions _ _ _ _ _ h2
  have hm : ((sharedStream cs).drop pre.length).take 19 = m := by
    rw [he, List.append_assoc, List.drop_left, ← hv.len, List.take_left]
  obtain ⟨q, hq, g1, g2⟩ := e4 pre.length (by rw [he]; simp [hv.len]) (by rw [hm]; exact hv)
  rcases Nat.lt_or_ge q pre.length with hlt | hge
  · exact absurd (e3 q hq).2 (hno q hlt g2)
  · have : q = pre.length := by omega
    subst this
    rw [e1, ← hm]
    exact List.mem_map_of_mem (f := fun q => ((sharedStream cs).drop q).take 19) hq

end Verif.PcReq
