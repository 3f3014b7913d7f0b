import Verif.Spec.Operator
import Verif.Props.PcRequests
import Verif.Props.Term
import Verif.Props.PcIsolation
import Verif.Props.VehicleSafe

set_option autoImplicit false

/-!
# C140: the power outputs are as the PC last asked
-/

namespace Verif.Vehicle
open InvDrv OperatorSpec TermSpec FrameSpec

/-! ## The specification -/

theorem orders_snoc (cur : List UInt8) (ms : List (List UInt8)) (m : List UInt8) :
    orders cur (ms ++ [m]) = orders cur ms ++ (direct m ++
      (splitLines (typed m) (splitLines (ms.flatMap typed) cur).2).1.flatMap fun l => acts (words l [])) := by
  induction ms generalizing cur with
  | nil => simp [orders, splitLines]
  | cons x ms ih =>
    simp only [List.cons_append, orders, ih, List.flatMap_cons, Term.split_append, List.append_assoc]

theorem lastAsked_append (ch : Nat) (b : Bool) (x y : List Act) :
    lastAsked ch b (x ++ y) = lastAsked ch (lastAsked ch b x) y := by
  induction x generalizing b with
  | nil => rfl
  | cons a x ih => cases a <;> exact ih _

theorem _root_.Verif.OperatorSpec.Ordinary.good {ms : List (List UInt8)} (h : Ordinary ms) :
    ∀ l ∈ (splitLines (ms.flatMap typed) []).1, Term.Good l := fun l hl =>
  ⟨h.length l hl, ⟨h.head l hl, h.last l hl, h.few l hl⟩, h.known l hl⟩

theorem _root_.Verif.OperatorSpec.Ordinary.init {ms : List (List UInt8)} {m : List UInt8} (h : Ordinary (ms ++ [m])) : Ordinary ms := by
  have e : (ms ++ [m]).flatMap typed = ms.flatMap typed ++ typed m := by simp
  have s : ∀ l ∈ (splitLines (ms.flatMap typed) []).1, l ∈ (splitLines ((ms ++ [m]).flatMap typed) []).1 := by
    intro l hl
    rw [e, Term.split_append]
    exact List.mem_append_left _ hl
  refine ⟨fun x hx => h.one x (by simp [hx]), fun l hl => h.length l (s l hl), fun l hl => h.head l (s l hl),
    fun l hl => h.last l (s l hl), fun l hl => h.few l (s l hl), fun l hl => h.known l (s l hl), ?_⟩
  have h1 := h.length; have h2 := h.rest
  rw [e, Term.split_append] at h1 h2
  exact Term.split_pending (typed m) _ 56 (fun l hl => h1 l (List.mem_append_right _ hl)) h2

/-! ## The calls of the PC interface -/

/-- The calls among these that act on the vehicle. -/
def pend (as : List PcAct) : List Act :=
  as.filterMap fun a => match a with
    | .ecuError b => some (.ecuError b)
    | .power c b => some (.power c b)
    | _ => none

/-- No terminal text among these. -/
def Plain (as : List PcAct) : Prop := ∀ a ∈ as, ∀ bs, a ≠ .terminal bs

theorem pend_ofTerm (es : List Term.Eff) : pend (es.map ofTerm) = Term.vehicle es := by
  induction es with
  | nil => rfl
  | cons e es ih => cases e <;> simp_all [pend, Term.vehicle, ofTerm]

theorem plain_ofTerm (es : List Term.Eff) : Plain (es.map ofTerm) := by
  intro a ha bs
  obtain ⟨e, -, rfl⟩ := List.mem_map.mp ha
  cases e <;> simp [ofTerm]

/-- What is kept for the messages `ms` handled so far and the actions `done` carried out: what is
still to be done is the rest of what they ask for, and the outputs are as carried out. -/
structure Serves (s : St) (ms : List (List UInt8)) (done : List Act) : Prop where
  work : (Plain s.todo ∧ orders [] ms = done ++ pend s.todo ∧
      Term.content s.term = (splitLines (ms.flatMap typed) []).2) ∨
    ∃ ms' m, ms = ms' ++ [m] ∧ IsRequest m 0x9 ∧ s.todo = [.terminal ((m.drop 5).take 8)] ∧
      orders [] ms' = done ∧ Term.content s.term = (splitLines (ms'.flatMap typed) []).2
  newline : 10 ∉ Term.content s.term
  nul : ∀ c ∈ Term.content s.term, c ≠ 0
  pins : ∀ i (h : i < 6), s.level (Pdm.shippedPins[i]'h) = lastAsked i false done ∧
    s.vd.glv.pdmChState[i] = lastAsked i false done
  range : ∀ c b, Act.power c b ∈ pend s.todo → c < 6

/-- The part of the state the operator's requests depend on and act on. -/
structure SameDesk (a b : St) : Prop where
  todo : a.todo = b.todo
  term : a.term = b.term
  dec : a.dec = b.dec
  level : a.level = b.level
  glv : a.vd.glv = b.vd.glv
  channels : a.channels = b.channels
  numChannels : a.numChannels = b.numChannels
  control : a.control = b.control

/-- Nobody but the PC interface touches it. -/
theorem desk_step {s s' : St} {e : Ev} {fs : List Sent} (he : e.isPc = false)
    (h : step s e = .ok (s', fs)) : SameDesk s' s := by
  cases e with
  | write d => cases h; exact ⟨rfl, rfl, rfl, rfl, rfl, rfl, rfl, rfl⟩
  | copy ok =>
    simp only [step] at h
    split at h
    · split at h
      · cases h
      · cases h; exact ⟨rfl, rfl, rfl, rfl, rfl, rfl, rfl, rfl⟩
    · cases h; exact ⟨rfl, rfl, rfl, rfl, rfl, rfl, rfl, rfl⟩
  | handle ok =>
    simp only [step] at h
    split at h
    · cases h; exact ⟨rfl, rfl, rfl, rfl, rfl, rfl, rfl, rfl⟩
    · split at h
      · cases h
      · cases h; exact ⟨rfl, rfl, rfl, rfl, rfl, rfl, rfl, rfl⟩
  | call en =>
    simp only [step] at h
    split at h
    · cases h; exact ⟨rfl, rfl, rfl, rfl, rfl, rfl, rfl, rfl⟩
    · unfold applyOut at h
      split at h
      · cases h
      · cases h; exact ⟨rfl, rfl, rfl, rfl, rfl, rfl, rfl, rfl⟩
  | throttle ok en =>
    simp only [step] at h
    split at h
    · cases h
    · cases h; exact ⟨rfl, rfl, rfl, rfl, rfl, rfl, rfl, rfl⟩
  | pcBatch b crc => cases he
  | pcAct l => cases he

theorem Serves.same {a b : St} {ms : List (List UInt8)} {done : List Act} (h : Serves b ms done)
    (k : SameDesk a b) : Serves a ms done := by
  refine ⟨?_, ?_, ?_, ?_, ?_⟩
  · rw [k.todo, k.term]; exact h.work
  · rw [k.term]; exact h.newline
  · rw [k.term]; exact h.nul
  · rw [k.level, k.glv]; exact h.pins
  · rw [k.todo]; exact h.range

/-- Switching a channel that exists, the lock being obtained. -/
theorem setPower_pins {s s' : St} {c : Nat} {on : Bool} (hc : s.channels = some Pdm.shippedPins)
    (hn : s.numChannels = 6) (h6 : c < 6) (h : setPower s c on true = .ok s') :
    (∀ i (h : i < 6), s'.level (Pdm.shippedPins[i]'h) = (if c = i then on else s.level (Pdm.shippedPins[i]'h)) ∧
      s'.vd.glv.pdmChState[i] = (if c = i then on else s.vd.glv.pdmChState[i])) ∧
    s'.todo = s.todo ∧ s'.term = s.term ∧ s'.dec = s.dec ∧ s'.channels = s.channels ∧
      s'.numChannels = s.numChannels ∧ s'.control = s.control := by
  have g : Pdm.Good ⟨s.channels, s.numChannels, s.vd.glv.pdmChState.toList, s.level⟩ Pdm.shippedPins :=
    ⟨hc, hn, by decide, by simp [Pdm.init, hc, hn, Pdm.maxChannels], by simp [Pdm.maxChannels]⟩
  obtain ⟨r, t, e, gt, hp, -, -, -, -⟩ := Pdm.set_spec g ⟨UInt8.ofNat c, on, true⟩
  unfold setPower at h
  rw [e] at h
  cases h
  refine ⟨fun i hi => ?_, rfl, rfl, rfl, rfl, rfl, rfl⟩
  have hcn : (UInt8.ofNat c).toNat = c := by
    rw [UInt8.toNat_ofNat']; omega
  obtain ⟨p1, p2⟩ := hp i hi
  dsimp only at p1 p2 ⊢
  simp only [hcn, and_true] at p1 p2
  refine ⟨p2, ?_⟩
  rw [Vector.getElem_ofFn, List.getD_eq_getElem?_getD, p1]
  split
  · rfl
  · have h8 : i < 8 := by omega
    simp [h8]

theorem direct_ordinary {m : List UInt8} (h : ¬ IsRequest m 0x9) : typed m = [] := by
  unfold typed; rw [if_neg h]

/-- What the handler of a message queues. -/
theorem handle_queue (m : List UInt8) (hl : m.length = 19) :
    (Plain ((PcReq.handleMessage true m).map ofReq) ∧ pend ((PcReq.handleMessage true m).map ofReq) = direct m ∧
      ¬ IsRequest m 0x9 ∧ ∀ c b, Act.power c b ∈ direct m → c < 6) ∨
    (IsRequest m 0x9 ∧ (PcReq.handleMessage true m).map ofReq = [.terminal ((m.drop 5).take 8)] ∧ direct m = []) := by
  by_cases ha : PcReq.addrOf m = 1
  · have hA := (PcReq.C36_effects true m).1 ⟨rfl, hl, ha⟩
    generalize PcReq.handleMessage true m = l at hA ⊢
    cases hA with
    | sdc hf =>
      left
      have n1 : ¬ IsRequest m 0x102 := fun h => by have : PcReq.funcOf m = 0x102 := h.2; omega
      have n2 : IsRequest m 0x101 := ⟨ha, hf⟩
      refine ⟨?_, ?_, fun h => ?_, ?_⟩
      · simp [Plain, ofReq]
      · simp [pend, ofReq, direct, n1, n2, PcReq.dataOf]
      · have : PcReq.funcOf m = 0x9 := h.2; omega
      · simp [direct, n1, n2]
    | pdm hf =>
      left
      have n1 : IsRequest m 0x102 := ⟨ha, hf⟩
      refine ⟨?_, ?_, fun h => ?_, ?_⟩
      · simp [Plain, ofReq]
      · simp [pend, ofReq, direct, n1, PcReq.dataOf, List.range, List.range.loop]
      · have : PcReq.funcOf m = 0x9 := h.2; omega
      · intro c b hb
        simp only [direct, n1, if_true, List.mem_map, List.mem_range] at hb
        obtain ⟨i, hi, h⟩ := hb
        cases h
        exact hi
    | text hf =>
      right
      have n1 : ¬ IsRequest m 0x102 := fun h => by have : PcReq.funcOf m = 0x102 := h.2; omega
      have n2 : ¬ IsRequest m 0x101 := fun h => by have : PcReq.funcOf m = 0x101 := h.2; omega
      exact ⟨⟨ha, hf⟩, rfl, by simp [direct, n1, n2]⟩
    | other h1 h2 h3 =>
      left
      have n1 : ¬ IsRequest m 0x102 := fun h => h2 h.2
      have n2 : ¬ IsRequest m 0x101 := fun h => h1 h.2
      exact ⟨by simp [Plain], by simp [pend, direct, n1, n2], fun h => h3 h.2, by simp [direct, n1, n2]⟩
  · left
    have hn : ∀ f, ¬ IsRequest m f := fun f h => ha h.1
    rw [(PcReq.C36_effects true m).2 (fun h => ha h.2.2)]
    exact ⟨by simp [Plain], by simp [pend, direct, hn], hn _, by simp [direct, hn]⟩

/-- Everything the invariant says: the decoder and the configuration in any case, the requests while
the terminal text is ordinary. -/
structure Desk (s : St) (ms : List (List UInt8)) : Prop where
  ready : PcReq.Ready s.dec
  channels : s.channels = some Pdm.shippedPins
  number : s.numChannels = 6
  control : s.control = true
  serves : Ordinary ms → ∃ done, Serves s ms done

theorem parse_lengths {V : List UInt8 → Prop} {L : Nat} {l r : List UInt8} {ms : List (List UInt8)}
    (h : Parse V L l ms r) : ∀ m ∈ ms, m.length = L := by
  induction h with
  | done _ => simp
  | hit h1 h2 _ ih =>
    intro m hm
    rcases List.mem_cons.mp hm with rfl | hm
    · rw [List.length_take]; omega
    · exact ih m hm
  | skip _ _ _ ih => exact ih

/-- A batch adds at most one message and queues what it asks for. -/
theorem batch_desk {s s' : St} {ms : List (List UInt8)} {b : List UInt8} {f : List UInt8 → UInt32} {fs : List Sent}
    (h : Desk s ms) (hb : b.length ≤ 8) (ht : s.todo = []) (hs : step s (.pcBatch b (MsgFrame.unit f)) = .ok (s', fs)) :
    ∃ m : Option (List UInt8), Parse (Valid f 19) 19 (MsgFrame.content s.dec ++ b) m.toList (MsgFrame.content s'.dec) ∧
      Desk s' (ms ++ m.toList) := by
  obtain ⟨m, d, e1, e2, -, -, e5⟩ := PcReq.batch_spec (MsgFrame.unit f) h.ready hb
  have hp := e5 f rfl
  simp only [step, ht, e1] at hs
  cases hs
  refine ⟨m, hp, e2, h.channels, h.number, h.control, ?_⟩
  cases m with
  | none =>
    intro ho
    simp only [Option.toList_none, List.append_nil] at ho ⊢
    obtain ⟨done, k⟩ := h.serves ho
    refine ⟨done, ?_, k.newline, k.nul, k.pins, by simp [pend]⟩
    rcases k.work with w | ⟨_, _, _, _, w, _⟩
    · rw [ht] at w; exact .inl w
    · rw [ht] at w; cases w
  | some m =>
    intro ho
    simp only [Option.toList_some, List.flatMap_cons, List.flatMap_nil, List.append_nil] at ho ⊢
    obtain ⟨done, k⟩ := h.serves ho.init
    have hm := parse_lengths hp m (by simp)
    have hq := handle_queue m hm
    rw [h.control]
    have hw : orders [] ms = done ∧ Term.content s.term = (splitLines (ms.flatMap typed) []).2 := by
      rcases k.work with w | ⟨_, _, _, _, w, _⟩
      · rw [ht] at w
        simpa [pend] using w.2
      · rw [ht] at w; cases w
    refine ⟨done, ?_, k.newline, k.nul, k.pins, ?_⟩
    · rcases hq with ⟨q1, q2, q3, -⟩ | ⟨q1, q2, q3⟩
      · left
        refine ⟨q1, ?_, ?_⟩
        · dsimp only
          rw [orders_snoc, hw.1, q2, direct_ordinary q3]
          simp [splitLines]
        · dsimp only
          rw [List.flatMap_append, List.flatMap_cons, direct_ordinary q3]
          simpa using hw.2
      · right
        exact ⟨ms, m, rfl, q1, q2, hw.1, hw.2⟩
    · rcases hq with ⟨q1, q2, q3, q4⟩ | ⟨q1, q2, q3⟩
      · intro c b hb
        dsimp only at hb
        rw [q2] at hb
        exact q4 c b hb
      · intro c b hb
        dsimp only at hb
        rw [q2] at hb
        simp [pend] at hb

/-- The powers a line asks for are of the six outputs. -/
theorem acts_range (ws : List (List UInt8)) : ∀ c b, Act.power c b ∈ acts ws → c < 6 := by
  intro c b h
  unfold acts at h
  split at h
  · simp at h
  · split at h
    · split at h
      · simp only [Option.mem_toList, Option.map_eq_some_iff] at h
        obtain ⟨_, _, h⟩ := h; cases h
      · simp at h
    · split at h
      · split at h
        · rename_i hl
          rw [List.mem_mapIdx] at h
          obtain ⟨i, hi, h⟩ := h
          cases h
          omega
        · simp at h
      · simp at h

/-- A call of the PC interface carries out the next thing asked. -/
theorem act_desk {s s' : St} {ms : List (List UInt8)} {fs : List Sent} (h : Desk s ms)
    (hs : step s (.pcAct true) = .ok (s', fs)) : s'.dec = s.dec ∧ Desk s' ms := by
  simp only [step] at hs
  split at hs
  · cases hs; exact ⟨rfl, h⟩
  rename_i a as hto
  split at hs
  · cases hs
  rename_i s1 ha
  cases hs
  cases a with
  | ecuError b =>
    simp only [act] at ha
    cases ha
    refine ⟨rfl, h.ready, h.channels, h.number, h.control, fun ho => ?_⟩
    obtain ⟨done, k⟩ := h.serves ho
    have hr := k.range
    rw [hto] at hr
    refine ⟨done ++ [.ecuError b], ?_, k.newline, k.nul, ?_, ?_⟩
    · rcases k.work with ⟨w1, w2, w3⟩ | ⟨_, _, _, _, w, _⟩
      · rw [hto] at w1 w2
        refine .inl ⟨fun x hx => w1 x (List.mem_cons_of_mem _ hx), ?_, w3⟩
        rw [w2]; simp [pend]
      · rw [hto] at w; cases w
    · intro i hi
      rw [lastAsked_append]
      exact k.pins i hi
    · intro c b' hb
      exact hr c b' (by simpa [pend] using hb)
  | print t =>
    simp only [act] at ha
    cases ha
    refine ⟨rfl, h.ready, h.channels, h.number, h.control, fun ho => ?_⟩
    obtain ⟨done, k⟩ := h.serves ho
    have hr := k.range
    rw [hto] at hr
    refine ⟨done, ?_, k.newline, k.nul, k.pins, ?_⟩
    · rcases k.work with ⟨w1, w2, w3⟩ | ⟨_, _, _, _, w, _⟩
      · rw [hto] at w1 w2
        refine .inl ⟨fun x hx => w1 x (List.mem_cons_of_mem _ hx), ?_, w3⟩
        rw [w2]; simp [pend]
      · rw [hto] at w; cases w
    · intro c b' hb
      exact hr c b' (by simpa [pend] using hb)
  | power c b =>
    simp only [act] at ha
    have hf := setPower_frame ha
    refine ⟨hf.2.1, by rw [hf.2.1]; exact h.ready, (setPower_same ha).2.2.1.trans h.channels, hf.1.trans h.number,
      hf.2.2.2.trans h.control, fun ho => ?_⟩
    obtain ⟨done, k⟩ := h.serves ho
    have hr := k.range
    rw [hto] at hr
    have hc6 : c < 6 := hr c b (by simp [pend])
    obtain ⟨p1, p2, p3, -⟩ := setPower_pins (s := { s with todo := as }) h.channels h.number hc6 ha
    refine ⟨done ++ [.power c b], ?_, ?_, ?_, ?_, ?_⟩
    · rcases k.work with ⟨w1, w2, w3⟩ | ⟨_, _, _, _, w, _⟩
      · rw [hto] at w1 w2
        rw [p2, p3]
        refine .inl ⟨fun x hx => w1 x (List.mem_cons_of_mem _ hx), ?_, w3⟩
        rw [w2]; simp [pend]
      · rw [hto] at w; cases w
    · rw [p3]; exact k.newline
    · rw [p3]; exact k.nul
    · intro i hi
      obtain ⟨q1, q2⟩ := p1 i hi
      obtain ⟨k1, k2⟩ := k.pins i hi
      rw [lastAsked_append, q1, q2]
      dsimp only
      rw [k1, k2]
      exact ⟨rfl, rfl⟩
    · intro c' b' hb
      rw [p2] at hb
      exact hr c' b' (by
        have : pend (PcAct.power c b :: as) = .power c b :: pend as := by simp [pend]
        rw [this]
        exact List.mem_cons_of_mem _ hb)
  | terminal bs =>
    simp only [act] at ha
    split at ha
    · cases ha
    rename_i l t hrec
    cases ha
    refine ⟨rfl, h.ready, h.channels, h.number, h.control, fun ho => ?_⟩
    obtain ⟨done, k⟩ := h.serves ho
    rcases k.work with ⟨w1, -, -⟩ | ⟨ms', m, rfl, w1, w2, w3, w4⟩
    · rw [hto] at w1
      exact absurd rfl (w1 _ (by simp) bs)
    · rw [hto] at w2
      injection w2 with w2 w5
      injection w2 with w2
      subst w5 w2
      have hty : typed m = Term.text ((m.drop 5).take 8) := by
        unfold typed; rw [if_pos w1]; rfl
      have hfl : (ms' ++ [m]).flatMap typed = ms'.flatMap typed ++ typed m := by simp
      have hg := ho.good
      rw [hfl, Term.split_append, ← w4, hty] at hg
      obtain ⟨calls, es, t', r1, -, r3, r4, r5, r6, -⟩ := Term.recv_lines s.term ((m.drop 5).take 8)
        (by rw [List.length_take]; omega) (by rw [← hty]; exact ho.one m (by simp))
        (by rw [w4]; exact ho.init.rest) k.newline k.nul (fun l hl => hg l (List.mem_append_right _ hl))
      rw [r1] at hrec
      cases hrec
      refine ⟨done, .inl ⟨?_, ?_, ?_⟩, r5, r6, k.pins, ?_⟩
      · simpa using plain_ofTerm es
      · have hd : direct m = [] := by
          have e9 := w1.2
          unfold direct
          rw [if_neg (fun h => by have := h.2; omega), if_neg (fun h => by have := h.2; omega)]
        dsimp only
        rw [List.append_nil, pend_ofTerm, r3, orders_snoc, w3, hd, ← w4, hty]
        rfl
      · dsimp only
        rw [r4, hfl, Term.split_append, ← w4, hty]
      · intro c b hb
        dsimp only at hb
        rw [List.append_nil, pend_ofTerm, r3] at hb
        obtain ⟨x, -, hx⟩ := List.mem_flatMap.mp hb
        exact acts_range _ c b hx

/-- A run from such a state. -/
theorem run_desk (f : List UInt8 → UInt32) {s s' : St} {ms : List (List UInt8)} {es : List Ev} {fs : List Sent} (h : Desk s ms)
    (hb : ∀ b crc, Ev.pcBatch b crc ∈ es → b.length ≤ 8 ∧ crc = MsgFrame.unit f)
    (hl : ∀ lock, Ev.pcAct lock ∈ es → lock = true) (hr : run s es = .ok (s', fs)) :
    ∃ ns, Parse (Valid f 19) 19 (MsgFrame.content s.dec ++ taken s es) ns (MsgFrame.content s'.dec) ∧ Desk s' (ms ++ ns) := by
  induction es generalizing s ms fs with
  | nil =>
    cases hr
    refine ⟨[], ?_, by simpa using h⟩
    simp only [taken, List.append_nil]
    refine .done ?_
    rw [MsgFrame.content_length]
    have := h.ready.few
    omega
  | cons e es ih =>
    simp only [run] at hr
    split at hr
    · cases hr
    rename_i s1 f1 h1
    split at hr
    · cases hr
    rename_i s2 f2 h2
    cases hr
    have hb' : ∀ b crc, Ev.pcBatch b crc ∈ es → b.length ≤ 8 ∧ crc = MsgFrame.unit f :=
      fun b crc hm => hb b crc (List.mem_cons_of_mem _ hm)
    have hl' : ∀ lock, Ev.pcAct lock ∈ es → lock = true := fun l hm => hl l (List.mem_cons_of_mem _ hm)
    cases hpc : e.isPc with
    | false =>
      have k := desk_step hpc h1
      have hd : Desk s1 ms := ⟨by rw [k.dec]; exact h.ready, k.channels.trans h.channels, k.numChannels.trans h.number,
        k.control.trans h.control, fun ho => by
          obtain ⟨done, q⟩ := h.serves ho
          exact ⟨done, q.same k⟩⟩
      obtain ⟨ns, n1, n2⟩ := ih hd hb' hl' h2
      refine ⟨ns, ?_, n2⟩
      rw [k.dec] at n1
      have : taken s (e :: es) = taken s1 es := by
        simp only [taken, h1]
        cases e <;> first | rfl | cases hpc
      rw [this]
      exact n1
    | true =>
      cases e with
      | pcBatch b crc =>
        obtain ⟨b8, rfl⟩ := hb b crc (by simp)
        by_cases ht : s.todo = []
        · obtain ⟨m, p1, p2⟩ := batch_desk h b8 ht h1
          obtain ⟨ns, n1, n2⟩ := ih p2 hb' hl' h2
          refine ⟨m.toList ++ ns, ?_, by rw [← List.append_assoc]; exact n2⟩
          have : taken s (.pcBatch b (MsgFrame.unit f) :: es) = b ++ taken s1 es := by
            simp only [taken, h1, ht, if_true]
          rw [this, ← List.append_assoc]
          exact p1.append n1
        · have he : s1 = s := by
            simp only [step] at h1
            split at h1
            · cases h1; rfl
            · rename_i h0; exact absurd h0 ht
          subst he
          obtain ⟨ns, n1, n2⟩ := ih h hb' hl' h2
          refine ⟨ns, ?_, n2⟩
          have : taken s1 (.pcBatch b (MsgFrame.unit f) :: es) = taken s1 es := by
            simp only [taken, h1, ht, if_false, List.nil_append]
          rw [this]
          exact n1
      | pcAct lock =>
        obtain rfl := hl lock (by simp)
        obtain ⟨d1, d2⟩ := act_desk h h1
        obtain ⟨ns, n1, n2⟩ := ih d2 hb' hl' h2
        refine ⟨ns, ?_, n2⟩
        rw [d1] at n1
        have : taken s (.pcAct true :: es) = taken s1 es := by
          simp only [taken, h1, List.nil_append]
        rw [this]
        exact n1
      | _ => cases hpc

/-- **C140.** Take any history of the vehicle from start-up with control by the PC enabled: any
interleaving of the state manager, the throttle task, writes to the vehicle data and the PC
interface, which reads batches of at most eight bytes, the CRC unit computing `f` and the vehicle
data lock being obtained by the PC interface. Whenever the PC interface has finished what it has
read, then - the terminal text being ordinary - the pin of every one of the six power outputs is at
the level last asked for by the frames in those bytes, by a power request or by a `setpdm` line,
whichever came later, and low if none asked; and the published state is the same. -/
theorem C140_outputs_as_asked (f : List UInt8 → UInt32) (mgr : StateMgr.StateManager) (d buf : Nat → UInt8)
    (ecu : Bool) (dec : MsgFrame.Dec) (hd : MsgFrame.init 19 d = some dec) (es : List Ev)
    (hb : ∀ b crc, Ev.pcBatch b crc ∈ es → b.length ≤ 8 ∧ crc = MsgFrame.unit f)
    (hl : ∀ lock, Ev.pcAct lock ∈ es → lock = true) (s : St) (fs : List Sent)
    (hr : run (start mgr dec buf ecu true) es = .ok (s, fs)) :
    ∃ ms rest, Parse (Valid f 19) 19 (taken (start mgr dec buf ecu true) es) ms rest ∧
      (Ordinary ms → s.todo = [] → ∀ i (h : i < 6),
        s.level (Pdm.shippedPins[i]'h) = lastAsked i false (orders [] ms) ∧
        s.vd.glv.pdmChState[i] = lastAsked i false (orders [] ms)) := by
  have hdec : dec = (PcReq.initRun d).dec := by
    have := PcReq.init_eq d
    rw [show PcReq.reqLen = 19 from rfl, hd] at this
    injection this
  have h0 : Desk (start mgr dec buf ecu true) [] := by
    refine ⟨by rw [hdec]; exact PcReq.initRun_ready d, rfl, rfl, rfl, fun _ => ⟨[], .inl ⟨?_, rfl, rfl⟩, ?_, ?_, ?_, ?_⟩⟩
    · intro a ha; cases ha
    · intro h; cases h
    · intro c h; cases h
    · intro i hi
      refine ⟨rfl, ?_⟩
      show (VData.zero).glv.pdmChState[i] = false
      simp [VData.zero]
    · intro c b h; cases h
  obtain ⟨ns, n1, n2⟩ := run_desk f h0 hb hl hr
  have hc : MsgFrame.content (start mgr dec buf ecu true).dec = [] := by
    rw [← List.length_eq_zero_iff, MsgFrame.content_length]
    show dec.stop - dec.start = 0
    rw [hdec]; rfl
  rw [hc, List.nil_append] at n1
  refine ⟨ns, _, n1, fun ho ht i hi => ?_⟩
  obtain ⟨done, k⟩ := n2.serves (by simpa using ho)
  rw [List.nil_append] at k
  rcases k.work with ⟨-, w, -⟩ | ⟨_, _, _, _, w, _⟩
  · rw [ht] at w
    have : orders [] ns = done := by simpa [pend] using w
    rw [this]
    exact k.pins i hi
  · rw [ht] at w; cases w

/-! ### A session -/

/-- A request of the PC with a checksum of zero. -/
def request (func : UInt8 × UInt8) (data : List UInt8) : List UInt8 :=
  [0x3A, 0, 1, func.1, func.2] ++ (data ++ List.replicate (8 - data.length) 0) ++ [0, 0, 0, 0, 0x0D, 0x0A]

/-- A power request for outputs 0 and 3, a line `setpdm 0 1 1 0 0 1` in three pieces, and, between
the second and the third piece, a power request for output 4. -/
def session : List (List UInt8) :=
  [request (1, 2) [0, 0, 1, 0, 0, 1, 0, 0], request (0, 9) (Term.str "setpdm 0"),
    request (0, 9) (Term.str " 1 1 0 0"), request (1, 2) [0, 0, 0, 0, 0, 0, 1, 0], request (0, 9) (Term.str " 1\n")]

/-- Each frame read in three batches, followed by enough time for what it asks. -/
def sessionRun (n : Nat) : List Ev :=
  (session.take n).flatMap fun m =>
    [.pcBatch (m.take 8) (MsgFrame.unit fun _ => 0), .pcBatch ((m.drop 8).take 8) (MsgFrame.unit fun _ => 0),
      .pcBatch (m.drop 16) (MsgFrame.unit fun _ => 0)] ++ List.replicate 20 (.pcAct true)

/-- The outputs after the first `n` frames. -/
def outputs (n : Nat) : Option (List Bool × Bool) :=
  (run (start (StateMgr.shipped Config.default) (PcReq.initRun fun _ => 0).dec (fun _ => 0) false true) (sessionRun n)).toOption.map
    fun r => (Pdm.shippedPins.map r.1.level, r.1.todo.isEmpty)

example : outputs 1 = some ([true, false, false, true, false, false], true) ∧
    outputs 3 = some ([true, false, false, true, false, false], true) ∧
    outputs 4 = some ([false, false, false, false, true, false], true) ∧
    outputs 5 = some ([false, true, true, false, false, true], true) := by decide +kernel

example : (List.range 6).map (fun i => lastAsked i false (orders [] session)) = [false, true, true, false, false, true] ∧
    (List.range 6).map (fun i => lastAsked i false (orders [] (session.take 4))) =
      [false, false, false, false, true, false] := by decide +kernel

example : Ordinary session := by
  have h : splitLines (session.flatMap typed) [] = ([Term.str "setpdm 0 1 1 0 0 1"], []) := by decide +kernel
  refine ⟨by decide +kernel, ?_, ?_, ?_, ?_, ?_, ?_⟩ <;> rw [h] <;> try decide +kernel
  intro l hl x hx
  rw [List.mem_singleton] at hl
  subst hl
  have : (words (Term.str "setpdm 0 1 1 0 0 1") []).head? = some help := by rw [hx]; rfl
  exact absurd this (by decide +kernel)

end Verif.Vehicle
