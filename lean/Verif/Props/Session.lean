import Verif.Spec.Session
import Verif.Props.Operator
import Verif.Props.PcTool

set_option autoImplicit false

/-!
# C147: what the PC's messages ask of the power outputs is done
-/

namespace Verif.Vehicle
open InvDrv OperatorSpec TermSpec FrameSpec SessionSpec
open Crc (hal)

theorem bytes_valid (m : Msg) : Valid hal 19 m.bytes := by
  have hl : (List.replicate (m.data.length + 11) (0 : UInt8)).length = m.data.length + 11 := List.length_replicate
  have := (PcTool.C87_encode m.addr m.func m.data _ hl (by rw [m.eight]; decide) (fun _ => 0)).2.1
  rwa [m.eight] at this

/-- A session that has arrived in part: the messages found are those that are complete. -/
theorem wire_parse (ms : List Msg) (t : List UInt8) (h : t <+: wire ms) :
    ∃ r, Parse (Valid hal 19) 19 t ((ms.take (t.length / 19)).map Msg.bytes) r := by
  induction ms generalizing t with
  | nil =>
    have : t = [] := List.prefix_nil.1 h
    subst this
    exact ⟨[], .done (by decide)⟩
  | cons m ms ih =>
    have hv := bytes_valid m
    by_cases hlt : t.length < 19
    · refine ⟨t, ?_⟩
      rw [Nat.div_eq_of_lt hlt]
      exact .done hlt
    · have hw : wire (m :: ms) = m.bytes ++ wire ms := rfl
      rw [hw] at h
      have hp : m.bytes <+: t := List.prefix_of_prefix_length_le (List.prefix_append ..) h (by rw [hv.len]; omega)
      obtain ⟨t', rfl⟩ := hp
      have ht' : t' <+: wire ms := (List.prefix_append_right_inj _).1 h
      obtain ⟨r, hr⟩ := ih t' ht'
      refine ⟨r, ?_⟩
      have hdiv : (m.bytes ++ t').length / 19 = t'.length / 19 + 1 := by
        rw [List.length_append, hv.len]; omega
      rw [hdiv, List.take_succ_cons, List.map_cons]
      have htk : (m.bytes ++ t').take 19 = m.bytes := by
        rw [List.take_append_of_le_length (by rw [hv.len]), ← hv.len, List.take_length]
      have hdr : (m.bytes ++ t').drop 19 = t' := by
        rw [← hv.len, List.drop_left]
      have := Parse.hit (V := Valid hal 19) (L := 19) (l := m.bytes ++ t') (by omega) (by rw [htk]; exact hv)
        (by rw [hdr]; exact hr)
      rwa [htk] at this

theorem byte_pair (x : UInt16) :
    (UInt8.ofNat ((x.toNat >>> 8) &&& 0xFF)).toNat * 256 + (UInt8.ofNat (x.toNat &&& 0xFF)).toNat = x.toNat := by
  have := x.toNat_lt
  rw [show (0xFF : Nat) = 2 ^ 8 - 1 from rfl, Nat.and_two_pow_sub_one_eq_mod, Nat.and_two_pow_sub_one_eq_mod,
    UInt8.toNat_ofNat', UInt8.toNat_ofNat', Nat.shiftRight_eq_div_pow]
  omega

theorem bytes_request (m : Msg) (g : UInt16) : IsRequest m.bytes g.toNat ↔ m.addr = 1 ∧ m.func = g := by
  have h1 : pair m.bytes 1 = m.addr.toNat := byte_pair m.addr
  have h3 : pair m.bytes 3 = m.func.toNat := byte_pair m.func
  unfold IsRequest
  rw [h1, h3]
  constructor
  · rintro ⟨a, b⟩
    exact ⟨UInt16.toNat_inj.1 a, UInt16.toNat_inj.1 b⟩
  · rintro ⟨a, b⟩
    rw [a, b]
    exact ⟨rfl, rfl⟩

theorem bytes_data (m : Msg) : (m.bytes.drop 5).take 8 = m.data := by
  have : ∃ t, m.bytes.drop 5 = m.data ++ t := ⟨_, by
    unfold Msg.bytes PcTool.encodeMessage
    dsimp only
    simp only [List.cons_append, List.nil_append, List.drop_succ_cons, List.drop_zero]
    rfl⟩
  obtain ⟨t, ht⟩ := this
  rw [ht, List.take_append_of_le_length (by rw [m.eight]), ← m.eight, List.take_length]

theorem bytes_at (m : Msg) (i : Nat) (hi : i < 8) : m.bytes.getD (5 + i) 0 = m.data[i]'(by rw [m.eight]; exact hi) := by
  have h : ((m.bytes.drop 5).take 8)[i]? = m.data[i]? := by rw [bytes_data]
  rw [List.getElem?_take_of_lt hi, List.getElem?_drop] at h
  rw [List.getD_eq_getElem?_getD, h, List.getElem?_eq_getElem (by rw [m.eight]; exact hi)]
  rfl

theorem typed_bytes (m : Msg) : typed m.bytes = m.text := by
  unfold typed Msg.text
  rw [bytes_data]
  have : IsRequest m.bytes 0x9 ↔ _ := bytes_request m 0x9
  by_cases h : m.addr = 1 ∧ m.func = 0x9
  · rw [if_pos h, if_pos (this.2 h)]
  · rw [if_neg h, if_neg (fun x => h (this.1 x))]

theorem direct_bytes (m : Msg) : direct m.bytes = m.direct := by
  unfold direct Msg.direct
  have h2 : IsRequest m.bytes 0x102 ↔ _ := bytes_request m 0x102
  have h1 : IsRequest m.bytes 0x101 ↔ _ := bytes_request m 0x101
  by_cases a : m.addr = 1 ∧ m.func = 0x102
  · rw [if_pos a, if_pos (h2.2 a)]
    apply List.ext_getElem
    · rw [List.length_map, List.length_range, List.length_mapIdx, List.length_drop, m.eight]
    · intro i hi _
      have hi' : i < 6 := by simpa using hi
      rw [List.getElem_map, List.getElem_range, List.getElem_mapIdx, bytes_at m (2 + i) (by omega),
        List.getElem_drop]
  · rw [if_neg a, if_neg (fun x => a (h2.1 x))]
    by_cases b : m.addr = 1 ∧ m.func = 0x101
    · have e : m.data.getLast? = some (m.data[7]'(by rw [m.eight]; omega)) := by
        rw [List.getLast?_eq_getElem?, show m.data.length - 1 = 7 by rw [m.eight],
          List.getElem?_eq_getElem (by rw [m.eight]; omega)]
      rw [if_pos b, if_pos (h1.2 b), bytes_at m 7 (by omega), e]
      simp
    · rw [if_neg b, if_neg (fun x => b (h1.1 x))]

theorem orders_bytes (ms : List Msg) (cur : List UInt8) : orders cur (ms.map Msg.bytes) = wants cur ms := by
  induction ms generalizing cur with
  | nil => rfl
  | cons m ms ih =>
    rw [List.map_cons]
    unfold orders wants
    rw [typed_bytes, direct_bytes, ih]

theorem plain_ordinary {ms : List Msg} (h : PlainText ms) : Ordinary (ms.map Msg.bytes) := by
  have ht : (ms.map Msg.bytes).flatMap typed = ms.flatMap Msg.text := by
    rw [List.flatMap_map]
    congr 1
    funext m
    exact typed_bytes m
  obtain ⟨h1, h2, h3, h4, h5, h6, h7⟩ := h
  unfold lines at *
  rw [← ht] at *
  refine ⟨?_, h2, h3, h4, h5, h6, h7⟩
  intro b hb
  obtain ⟨m, hm, rfl⟩ := List.mem_map.1 hb
  rw [typed_bytes]
  exact h1 m hm

/-- **C147.** The PC sends a session of messages, encoded by its tool; the ECU has so far read a part of the bytes
(any part, in any batches), with any other activity of the control software in between. Whenever the PC interface
has finished with what it has read, each power output is as last asked for by the messages that have arrived
completely, and the published state is the same. -/
theorem C147_session (mgr : StateMgr.StateManager) (d buf : Nat → UInt8)
    (ecu : Bool) (dec : MsgFrame.Dec) (hd : MsgFrame.init 19 d = some dec) (es : List Ev)
    (hb : ∀ b crc, Ev.pcBatch b crc ∈ es → b.length ≤ 8 ∧ crc = MsgFrame.unit hal)
    (hl : ∀ lock, Ev.pcAct lock ∈ es → lock = true) (s : St) (fs : List Sent)
    (hr : run (start mgr dec buf ecu true) es = .ok (s, fs)) (ms : List Msg)
    (hw : taken (start mgr dec buf ecu true) es <+: wire ms)
    (hp : PlainText (ms.take ((taken (start mgr dec buf ecu true) es).length / 19)))
    (hdone : s.todo = []) (i : Nat) (h : i < 6) :
    let asked := lastAsked i false (wants [] (ms.take ((taken (start mgr dec buf ecu true) es).length / 19)))
    s.level (Pdm.shippedPins[i]'h) = asked ∧ s.vd.glv.pdmChState[i] = asked := by
  obtain ⟨ms', rest, hpar, hout⟩ := C140_outputs_as_asked hal mgr d buf ecu dec hd es hb hl s fs hr
  obtain ⟨r, hpar'⟩ := wire_parse ms _ hw
  obtain ⟨rfl, -⟩ := Parse.det hpar hpar'
  have := hout (plain_ordinary hp) hdone i h
  rw [orders_bytes] at this
  exact this

/-- **C147, typed text.** However a text is cut into messages of at most eight characters, the messages carry that
text. -/
theorem C147_text (ts : List (List UInt8)) (h : ∀ t ∈ ts, t.length ≤ 8 ∧ (0 : UInt8) ∉ t) :
    (ts.pmap chunk (fun t ht => (h t ht).1)).flatMap Msg.text = ts.flatten := by
  induction ts with
  | nil => rfl
  | cons t ts ih =>
    rw [List.pmap_cons, List.flatMap_cons, List.flatten_cons, ih (fun x hx => h x (List.mem_cons_of_mem _ hx))]
    congr 1
    unfold Msg.text chunk
    rw [if_pos ⟨rfl, rfl⟩]
    dsimp only
    have hz := (h t (List.mem_cons_self ..)).2
    rw [List.takeWhile_append_of_pos]
    · have : (List.replicate (8 - t.length) (0 : UInt8)).takeWhile (· ≠ 0) = [] := by
        cases (8 - t.length) with
        | zero => rfl
        | succ n => rw [List.replicate_succ, List.takeWhile_cons_of_neg (by decide)]
      rw [this, List.append_nil]
    · intro x hx
      simp only [decide_not, Bool.not_eq_eq_eq_not, Bool.not_true, decide_eq_false_iff_not]
      rintro rfl
      exact hz hx

/-- Switch outputs 1 and 4 on by a power request; then type a line in two messages; a message to somebody else. -/
def session147 : List Msg :=
  [⟨1, 0x102, [0, 0, 1, 0, 0, 1, 0, 0], rfl⟩, chunk (Term.str "setpdm 0") (by decide),
   chunk (Term.str " 1 1 0 0") (by decide), chunk (Term.str " 1\n") (by decide),
   ⟨2, 0x102, [0, 0, 1, 1, 1, 1, 1, 1], rfl⟩]

example : (List.range 6).map (fun i => lastAsked i false (wants [] (session147.take 3))) =
    [true, false, false, true, false, false] ∧
    (List.range 6).map (fun i => lastAsked i false (wants [] session147)) = [false, true, true, false, false, true] := by
  decide +kernel

/-- The bytes read in batches of seven, each followed by what it asks for; `n` batches. -/
def outputs147 (n : Nat) : Option (List Bool × Bool × Nat) :=
  let batches := (List.range n).map fun k => ((wire session147).drop (7 * k)).take 7
  let es : List Ev := batches.flatMap fun b => .pcBatch b (MsgFrame.unit hal) :: List.replicate 20 (.pcAct true)
  let s0 := start (StateMgr.shipped Config.default) (PcReq.initRun fun _ => 0).dec (fun _ => 0) false true
  (run s0 es).toOption.map fun r => (Pdm.shippedPins.map r.1.level, r.1.todo.isEmpty, (taken s0 es).length)

example : outputs147 2 = some ([false, false, false, false, false, false], true, 14) ∧
    outputs147 3 = some ([true, false, false, true, false, false], true, 21) ∧
    outputs147 14 = some ([false, true, true, false, false, true], true, 95) := by decide +kernel

end Verif.Vehicle
