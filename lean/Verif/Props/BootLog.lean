import Verif.Model.BootLog
import Verif.Spec.BootLog
import Verif.Props.StartRace
import Verif.Props.LogStream
import Verif.Props.PcTool
import Mathlib.Tactic.ByContra
import Mathlib.Tactic.SplitIfs

set_option autoImplicit false

/-!
# C164, C165: what the PC reads of a start-up
-/

namespace Verif.BootLog

open StartRace (boot Step serialSet at_step)
open LogStream (Sys CString)
open BootLogSpec (report complaint written lines)

/-- Texts sent by the first steps. -/
def sent (l : List Step) : Nat := l.count .logSend

/-- What has been sent to the stream after `i` texts. -/
def said (i : Nat) : List UInt8 := ((texts.take i).drop early.length).flatMap chars

/-- At position `k`. -/
def Good (k : Nat) : Prop :=
  (boot[k]? = some .logSend → match texts[sent (boot.take k)]? with
    | some m => (∀ c ∈ chars m, c ≠ 0) ∧ chars m ≠ [] ∧ (chars m).length < 512
    | none => False) ∧
  (boot[k]? = some (.op (.hw .logLock)) → sent (boot.take k) = early.length) ∧
  (serialSet (boot.take k) = true → early.length ≤ sent (boot.take k)) ∧
  (said (sent (boot.take k))).length ≤ 1682

theorem chars_append (a b : String) : chars (a ++ b) = chars a ++ chars b := by
  unfold chars
  rw [String.toList_append, List.map_append]

/-- The lines of the picture. -/
def picture : List String :=
  ["####################################\n", "#     ___                          #\n",
   "#    /   \\                         #\n", "#   |] _ [|           DFEA         #\n",
   "#   |_/ \\_|          RACING        #\n", "#   / \\_/ \\                        #\n",
   "#  ||     ||                       #\n", "#  ||     ||      QUACKIN QUICK    #\n",
   "#   \\_____/                        #\n", "#   __   __                        #\n",
   "#                                  #\n", "####################################\n"]

theorem chars_welcome : chars welcome = picture.flatMap chars := by
  unfold welcome picture
  simp only [chars_append, List.flatMap_cons, List.flatMap_nil, List.append_nil, List.append_assoc]

/-- The texts around the picture. -/
def behind : List String := board ++ interface1 ++ devices ++ interface2 ++ processes

theorem texts_eq : texts = (early ++ ["PCInterface_Init complete\n", "\n\n\n"]) ++ welcome :: behind := by
  unfold texts system behind
  simp only [List.append_assoc, List.cons_append, List.nil_append]

/-- A text the log takes whole. -/
def Fit (l : List UInt8) : Prop := (∀ c ∈ l, c ≠ 0) ∧ l ≠ [] ∧ l.length < 512

instance (l : List UInt8) : Decidable (Fit l) := by unfold Fit; infer_instance

theorem texts_fit : ∀ m ∈ texts, Fit (chars m) := by
  have h1 : ∀ m ∈ early ++ ["PCInterface_Init complete\n", "\n\n\n"], Fit (chars m) := by decide +kernel
  have h2 : Fit (picture.flatMap chars) := by decide +kernel
  have h3 : ∀ m ∈ behind, Fit (chars m) := by decide +kernel
  intro m hm
  rw [texts_eq] at hm
  rcases List.mem_append.1 hm with hm | hm
  · exact h1 m hm
  rcases List.mem_cons.1 hm with rfl | hm
  · rw [chars_welcome]
    exact h2
  · exact h3 m hm

theorem sent_end : sent boot = texts.length := by
  rw [texts_eq, List.length_append, List.length_cons]
  decide +kernel

theorem serial_end : serialSet boot = true := by decide +kernel

theorem said_end : said texts.length = report := by
  unfold said
  rw [List.take_length, texts_eq, List.append_assoc, List.drop_left]
  simp only [List.cons_append, List.nil_append, List.flatMap_cons, chars_welcome]
  decide +kernel

theorem report_length : report.length = 1682 := by decide +kernel

theorem failure_text : failure.flatMap chars = complaint := by decide +kernel

/-- A prefix of the report, up to the end of a message. -/
theorem said_prefix (i : Nat) : said i <+: report := by
  rw [← said_end]
  unfold said
  rw [List.take_length]
  have : (texts.take i).drop early.length <+: texts.drop early.length := by
    rw [List.drop_take]
    exact List.take_prefix _ _
  obtain ⟨t, ht⟩ := this
  rw [← ht, List.flatMap_append]
  exact List.prefix_append _ _

theorem serial_good : ∀ k < boot.length + 1,
    (boot[k]? = some (.op (.hw .logLock)) → sent (boot.take k) = early.length) ∧
      (serialSet (boot.take k) = true → early.length ≤ sent (boot.take k)) := by decide +kernel

theorem good_all : ∀ k < boot.length + 1, Good k := by
  intro k hk
  refine ⟨fun h => ?_, (serial_good k hk).1, (serial_good k hk).2, ?_⟩
  · have hlt : sent (boot.take k) < texts.length := by
      rw [← sent_end]
      have h1 : boot.take (k + 1) = boot.take k ++ [Step.logSend] := by rw [List.take_add_one, h]; rfl
      have h2 : sent (boot.take (k + 1)) ≤ sent boot := (List.take_sublist _ _).count_le _
      have h3 : sent (boot.take (k + 1)) = sent (boot.take k) + 1 := by
        unfold sent
        rw [h1, List.count_append]
        rfl
      omega
    rw [List.getElem?_eq_getElem hlt]
    exact texts_fit _ (List.getElem_mem _)
  · rw [← report_length]
    exact (said_prefix _).length_le

theorem locked_not_hw : ∀ k < boot.length, StartRace.locked (boot.take k) = true → ∀ st, boot[k]? = some st →
    ¬ ∃ x, st = .op (.hw x) := by
  have h : ∀ k < boot.length, StartRace.locked (boot.take k) = true →
      (match boot[k]? with | some (.op (.hw _)) => false | _ => true) = true := by decide +kernel
  rintro k hk hl st hat ⟨x, rfl⟩
  have := h k hk hl
  rw [hat] at this
  cases this

attribute [local irreducible] boot texts

/-- The log before it has a stream. -/
def off : Sys := ⟨⟨false, false, [], [], []⟩, []⟩

/-- The log that has accepted `a` and sent nothing. -/
def holding (a : List UInt8) : Sys := ⟨⟨true, false, a, [], a⟩, []⟩

theorem say_off (crc : List UInt8 → Option UInt32) (ok : Bool) (m : String) (hm : ∀ c ∈ chars m, c ≠ 0) :
    say crc ok off m = .ok off := by
  unfold say Sys.step
  cases ok with
  | false => rfl
  | true =>
    dsimp only
    rw [LogStream.print_string _ (chars m) [] hm]
    rfl

theorem say_on (crc : List UInt8 → Option UInt32) (a : List UInt8) (m : String) (hm : ∀ c ∈ chars m, c ≠ 0)
    (hne : chars m ≠ []) (h512 : (chars m).length < 512) (hfit : a.length + (chars m).length ≤ 2047) :
    say crc true (holding a) m = .ok (holding (a ++ chars m)) := by
  unfold say Sys.step
  dsimp only
  rw [LogStream.print_string _ (chars m) [] hm]
  have hpos : 0 < (chars m).length := List.length_pos_iff.2 hne
  dsimp only [holding]
  simp only [Bool.false_eq_true, if_false, if_true]
  rw [List.take_of_length_le (Nat.le_of_lt h512)]
  have hsend : LogStream.send ⟨true, false, a, [], a⟩ (chars m) =
      .ok ⟨true, false, a ++ chars m, [], a ++ chars m⟩ := by
    have hcap : LogStream.cap = 2047 := rfl
    unfold LogStream.send
    rw [if_neg (by rw [hcap]; show ¬ 2047 - a.length = 0; omega),
      if_neg (by rw [hcap]; show ¬ min (chars m).length (2047 - a.length) = 0; omega),
      List.take_of_length_le (by rw [hcap]; show _ ≤ 2047 - a.length; omega)]
  rw [hsend]

theorem failure_fits : ∀ m ∈ failure, (∀ c ∈ chars m, c ≠ 0) ∧ chars m ≠ [] ∧ (chars m).length < 100 := by
  decide +kernel

theorem fail_off (crc : List UInt8 → Option UInt32) (ok : Bool) : failure.foldlM (say crc ok) off = .ok off := by
  have h : ∀ l : List String, (∀ m ∈ l, ∀ c ∈ chars m, c ≠ 0) → l.foldlM (say crc ok) off = .ok off := by
    intro l
    induction l with
    | nil => intro _; rfl
    | cons m l ih =>
      intro hl
      rw [List.foldlM_cons, say_off crc ok m (hl m List.mem_cons_self)]
      exact ih fun x hx => hl x (List.mem_cons_of_mem _ hx)
  exact h _ fun m hm => (failure_fits m hm).1

theorem fail_on (crc : List UInt8 → Option UInt32) (a : List UInt8) (ha : a.length ≤ 1682) :
    failure.foldlM (say crc true) (holding a) = .ok (holding (a ++ complaint)) := by
  rw [← failure_text]
  have h1 := failure_fits "Watchdog Trigger initialization error\n" (by simp [failure])
  have h2 := failure_fits "ECU Failed to initialize\n" (by simp [failure])
  unfold failure
  rw [List.foldlM_cons, say_on crc a _ h1.1 h1.2.1 (by omega) (by omega)]
  show (List.foldlM (say crc true) _ _) = _
  rw [List.foldlM_cons, say_on crc _ _ h2.1 h2.2.1 (by omega) (by rw [List.length_append]; omega)]
  simp [pure, Except.pure, bind, Except.bind]

/-! ## Invariant -/

/-- What has been said while start-up is not complete. -/
def shown (s : St) (k : Nat) : List UInt8 :=
  said (sent (boot.take k)) ++ if s.race.init = .stuck then complaint else []

/-- After `k` steps of start-up. -/
structure Inv (f : List UInt8 → UInt32) (s : St) (k : Nat) : Prop where
  race : StartRace.Inv s.race k
  left : s.left = texts.drop (sent (boot.take k))
  off : s.race.serial = false → s.sys = off
  now : s.race.serial = true → s.race.init ≠ .done → s.sys = holding (shown s k)
  fin : s.race.init = .done → report <+: s.sys.log.accepted
  hist : s.race.serial = true → ∃ evs, (∀ e ∈ evs, CString e) ∧ Sys.start.run (fun m => some (f m)) evs = .ok s.sys

theorem start_inv (f : List UInt8 → UInt32) : Inv f start 0 where
  race := StartRace.start_inv
  left := by simp [start, sent]
  off _ := rfl
  now h := by simp [start, StartRace.start] at h
  fin h := by simp [start, StartRace.start] at h
  hist h := by simp [start, StartRace.start] at h

theorem run_snoc (crc : List UInt8 → Option UInt32) (y y1 y2 : Sys) (evs : List LogStream.Ev) (e : LogStream.Ev)
    (h1 : y.run crc evs = .ok y1) (h2 : y1.step crc e = .ok y2) : y.run crc (evs ++ [e]) = .ok y2 := by
  unfold Sys.run at *
  rw [List.foldlM_append, h1]
  show List.foldlM (Sys.step crc) y1 [e] = _
  rw [List.foldlM_cons, h2]
  rfl

/-- A history goes on. -/
theorem hist_step {f : List UInt8 → UInt32} {y y' : Sys} {e : LogStream.Ev} (he : CString e)
    (hs : y.step (fun m => some (f m)) e = .ok y')
    (h : ∃ evs, (∀ e ∈ evs, CString e) ∧ Sys.start.run (fun m => some (f m)) evs = .ok y) :
    ∃ evs, (∀ e ∈ evs, CString e) ∧ Sys.start.run (fun m => some (f m)) evs = .ok y' := by
  obtain ⟨evs, h1, h2⟩ := h
  refine ⟨evs ++ [e], fun x hx => ?_, run_snoc _ _ _ _ _ _ h2 hs⟩
  rcases List.mem_append.1 hx with hx | hx
  · exact h1 x hx
  · rw [List.mem_singleton.1 hx]
    exact he

theorem cstring (ok : Bool) (m : String) (hm : ∀ c ∈ chars m, c ≠ 0) :
    CString (.print ok (chars m ++ [0])) := ⟨chars m, [], rfl, hm⟩

theorem hist_fail {f : List UInt8 → UInt32} {ok : Bool} (l : List String) (hl : ∀ m ∈ l, ∀ c ∈ chars m, c ≠ 0) {y y' : Sys}
    (hs : l.foldlM (say (fun m => some (f m)) ok) y = .ok y')
    (h : ∃ evs, (∀ e ∈ evs, CString e) ∧ Sys.start.run (fun m => some (f m)) evs = .ok y) :
    ∃ evs, (∀ e ∈ evs, CString e) ∧ Sys.start.run (fun m => some (f m)) evs = .ok y' := by
  induction l generalizing y with
  | nil =>
    simp only [List.foldlM_nil, pure, Except.pure, Except.ok.injEq] at hs
    exact hs ▸ h
  | cons m l ih =>
    rw [List.foldlM_cons] at hs
    cases h1 : say (fun m => some (f m)) ok y m with
    | error u => rw [h1] at hs; simp [bind, Except.bind] at hs
    | ok y1 =>
      rw [h1] at hs
      exact ih (fun x hx => hl x (List.mem_cons_of_mem _ hx)) hs
        (hist_step (cstring ok m (hl m List.mem_cons_self)) h1 h)

/-- The text accepted only grows. -/
theorem accepted_grows (crc : List UInt8 → Option UInt32) (y y' : Sys) (e : LogStream.Ev) (he : CString e)
    (hs : y.step crc e = .ok y') : y.log.accepted <+: y'.log.accepted := by
  cases e with
  | print ok mem =>
    obtain ⟨msg, junk, rfl, hm⟩ := he
    simp only [Sys.step] at hs
    cases h1 : LogStream.logPrint ok y.log (msg ++ 0 :: junk) with
    | error u => rw [h1] at hs; simp at hs
    | ok l' =>
      rw [h1] at hs
      injection hs with hs
      subst hs
      have h2 := (LogStream.C61_log_print_partial ok y.log l' msg junk hm h1).2.1
      show _ <+: l'.accepted
      rw [h2]
      split_ifs
      · exact List.prefix_append _ _
      · exact List.prefix_refl _
  | round =>
    simp only [Sys.step] at hs
    split_ifs at hs
    · injection hs with hs
      subst hs
      exact List.prefix_refl _
    · injection hs with hs
      subst hs
      exact List.prefix_refl _

theorem run_flag (f : List UInt8 → UInt32) (evs : List LogStream.Ev) (y y' : Sys) (hx : ∀ e ∈ evs, CString e)
    (hr : y.run (fun m => some (f m)) evs = .ok y') : y'.log.enableSerial = y.log.enableSerial := by
  induction evs generalizing y with
  | nil =>
    simp only [Sys.run, List.foldlM_nil, pure, Except.pure, Except.ok.injEq] at hr
    rw [hr]
  | cons x evs ih =>
    unfold Sys.run at hr ih
    rw [List.foldlM_cons] at hr
    cases h1 : y.step (fun m => some (f m)) x with
    | error u => rw [h1] at hr; simp [bind, Except.bind] at hr
    | ok y1 =>
      rw [h1] at hr
      rw [ih y1 (fun z hz => hx z (List.mem_cons_of_mem _ hz)) hr]
      cases x with
      | print ok mem =>
        obtain ⟨msg, junk, rfl, hm⟩ := hx _ List.mem_cons_self
        simp only [Sys.step] at h1
        cases h2 : LogStream.logPrint ok y.log (msg ++ 0 :: junk) with
        | error u => rw [h2] at h1; simp at h1
        | ok l' =>
          rw [h2] at h1
          injection h1 with h1
          subst h1
          exact (LogStream.C61_log_print_partial ok y.log l' msg junk hm h2).2.2.2.1
      | round =>
        simp only [Sys.step] at h1
        split_ifs at h1 <;> (injection h1 with h1; subst h1; rfl)

theorem sent_append (l : List Step) (st : Step) : sent (l ++ [st]) = sent l + if st = .logSend then 1 else 0 := by
  unfold sent
  rw [List.count_append, List.count_singleton]
  by_cases h : st = .logSend
  · simp [h]
  · simp [h]

/-- Setting the flag on a log that has it already. -/
theorem flag_on (a : List UInt8) :
    ({ holding a with log := { (holding a).log with enableSerial := true } } : Sys) = holding a := rfl

/-- The events are those of C: the PC interface prints C strings. -/
def Proper : Ev → Prop
  | .print _ mem => ∃ msg junk, mem = msg ++ 0 :: junk ∧ ∀ c ∈ msg, c ≠ 0
  | _ => True

theorem said_succ {i : Nat} {m : String} (h : texts[i]? = some m) (hi : early.length ≤ i) :
    said (i + 1) = said i ++ chars m := by
  unfold said
  have hlt : i < texts.length := (List.getElem?_eq_some_iff.1 h).1
  have hm : texts[i] = m := (List.getElem?_eq_some_iff.1 h).2
  rw [List.take_succ_eq_append_getElem hlt, List.drop_append_of_le_length (by rw [List.length_take]; omega),
    List.flatMap_append, hm]
  simp

theorem step_race {crc : List UInt8 → Option UInt32} {s : St} {e : StartRace.Ev} {r : StartRace.St}
    (e1 : StartRace.step s.race e = .ok r) : step crc s (.race e) = follow crc s e r := by
  simp only [step, e1]

/-- A step of start-up. -/
theorem race_inv {f : List UInt8 → UInt32} {s : St} {k : Nat} (h : Inv f s k) (e : StartRace.Ev) :
    ∃ s' k', step (fun m => some (f m)) s (.race e) = .ok s' ∧ Inv f s' k' ∧
      StartRace.step s.race e = .ok s'.race := by
  -- a step after which nothing has been said and the position is the same
  have stay : ∀ r, StartRace.step s.race e = .ok r → StartRace.Inv r k → saying s.race e = false →
      skipping s.race e = false → r.init = s.race.init → ∃ s' k', step (fun m => some (f m)) s (.race e) = .ok s' ∧
        Inv f s' k' ∧ StartRace.step s.race e = .ok s'.race := by
    intro r e1 h1 hsay hskip hinit
    have hser : r.serial = s.race.serial := by rw [h1.serial, h.race.serial]
    have hstuck : ¬ (s.race.init = .goes ∧ r.init = .stuck) := by
      rintro ⟨a, b⟩
      rw [hinit, a] at b
      cases b
    by_cases hs : r.serial = true
    · have hs' : s.race.serial = true := hser ▸ hs
      have hflag : ({ s.sys with log := { s.sys.log with enableSerial := true } } : Sys) = s.sys := by
        obtain ⟨evs, g1, g2⟩ := h.hist hs'
        have h3 : s.sys.log.enableSerial = true := run_flag f evs _ _ g1 g2
        show (⟨⟨true, s.sys.log.enableSWO, s.sys.log.stream, s.sys.log.swo, s.sys.log.accepted⟩, s.sys.frames⟩ : Sys) = s.sys
        rw [← h3]
      refine ⟨⟨r, s.left, s.sys⟩, k, ?_, ?_, e1⟩
      · rw [step_race e1]
        unfold follow
        rw [hsay, hskip, if_neg Bool.false_ne_true, if_neg Bool.false_ne_true, if_neg hstuck, if_pos hs, hflag]
      · refine ⟨h1, h.left, fun hf => absurd (hf.symm.trans hs) Bool.false_ne_true, fun _ hd => ?_, fun hd => ?_,
          fun _ => h.hist hs'⟩
        · have := h.now hs' (hinit ▸ hd)
          rw [this]
          unfold shown
          show _ = holding (_ ++ if r.init = .stuck then complaint else [])
          rw [hinit]
        · exact h.fin (hinit ▸ hd)
    · refine ⟨⟨r, s.left, s.sys⟩, k, ?_, ?_, e1⟩
      · rw [step_race e1]
        unfold follow
        rw [hsay, hskip, if_neg Bool.false_ne_true, if_neg Bool.false_ne_true, if_neg hstuck, if_neg hs]
      · refine ⟨h1, h.left, fun hf => h.off (hser ▸ hf), fun hf => absurd hf hs, fun hd => h.fin (hinit ▸ hd),
          fun hf => absurd hf hs⟩
  have hwants : s.race.init ≠ .wants := by rcases h.race.init with e | e | e <;> simp [e]
  have hskip : skipping s.race e = false := by simp [skipping, hwants]
  by_cases hinit : (∃ hw, e = .init hw) ∧ s.race.init = .goes
  · obtain ⟨⟨hw, rfl⟩, hg⟩ := hinit
    have hnd : s.race.init ≠ .done := by rw [hg]; simp
    have hns : s.race.init ≠ .stuck := by rw [hg]; simp
    have hshown : shown s k = said (sent (boot.take k)) := by simp [shown, hns]
    cases hr : s.race.rest with
    | nil =>
      have hk : k = boot.length := by
        have := h.race.rest
        rw [hr] at this
        exact Nat.le_antisymm h.race.le (List.drop_eq_nil_iff.1 this.symm)
      have e1 : StartRace.step s.race (.init hw) = .ok { s.race with init := .done } := by
        simp [StartRace.step, hg, hr]
      have hser : s.race.serial = true := by rw [h.race.serial, hk, List.take_length, serial_end]
      have hsys := h.now hser hnd
      rw [hshown, hk, List.take_length, sent_end, said_end] at hsys
      obtain ⟨r, k', e2, h2, -⟩ := StartRace.step_inv h.race (.init hw)
      rw [e1] at e2
      injection e2 with e2
      subst e2
      have hk' : k' = boot.length := by
        rcases h2.init with e | e | e
        · cases e
        · cases e
        · exact e.2
      refine ⟨⟨{ s.race with init := .done }, s.left, s.sys⟩, k', ?_, ?_, e1⟩
      · rw [step_race e1]
        unfold follow
        have hsay : saying s.race (.init hw) = false := by simp [saying, hr]
        rw [hsay, hskip, if_neg Bool.false_ne_true, if_neg Bool.false_ne_true, if_neg (by simp), if_pos hser, hsys]
        rfl
      · refine ⟨h2, ?_, fun hf => absurd (hf.symm.trans hser) Bool.false_ne_true, fun _ hd => absurd rfl hd,
          fun _ => ?_, fun _ => h.hist hser⟩
        · rw [h.left, hk, hk']
        · show report <+: s.sys.log.accepted
          rw [hsys]
          exact List.prefix_refl _
    | cons st rest =>
      have hdr : boot.drop k = st :: rest := by rw [← h.race.rest, hr]
      obtain ⟨hk, hat, -, htake⟩ := at_step hdr
      obtain ⟨r, e0, h1⟩ := StartRace.init_inv h.race hg hw hdr
      have e1 : StartRace.step s.race (.init hw) = .ok r := by
        simp only [StartRace.step, hg, if_true, hr]
        exact e0
      obtain ⟨g1, g2, g3, g4⟩ := good_all k (Nat.lt_succ_of_lt hk)
      obtain ⟨-, -, -, g5⟩ := good_all (k + 1) (Nat.succ_lt_succ hk)
      have hcount := sent_append (boot.take k) st
      rw [← htake] at hcount
      have hserial : r.serial = s.race.serial ∨ (st = .op (.hw .logLock) ∧ r.serial = true ∧ s.race.serial = false ∨
          st = .op (.hw .logLock) ∧ r.serial = true) := by
        rcases h1 with ⟨-, h1⟩ | ⟨-, -, h1⟩
        · have := StartRace.serialSet_append (boot.take k) st
          rw [← htake, ← h1.serial, ← h.race.serial] at this
          by_cases hst : st = .op (.hw .logLock)
          · right; right
            exact ⟨hst, by rw [this]; simp [hst]⟩
          · left
            rw [this]
            simp [hst]
        · left
          rw [h1.serial, h.race.serial]
      by_cases hst : st = .logSend
      · subst hst
        have hsay : saying s.race (.init hw) = true := by simp [saying, hg, hr]
        have hrg : r.init = .goes ∧ StartRace.Inv r (k + 1) := by
          rcases h1 with h1 | ⟨-, h1, -⟩
          · exact h1
          · exfalso
            simp only [StartRace.initStep] at e0
            split_ifs at e0 <;> (injection e0 with e0; rw [← e0] at h1; exact hns h1)
        have hser : r.serial = s.race.serial := by
          rcases hserial with h1 | ⟨h1, -⟩ | ⟨h1, -⟩
          · exact h1
          · cases h1
          · cases h1
        have hm := g1 hat
        cases ht : texts[sent (boot.take k)]? with
        | none => rw [ht] at hm; exact hm.elim
        | some m =>
          rw [ht] at hm
          obtain ⟨m1, m2, m3⟩ := hm
          have hleft : s.left = m :: texts.drop (sent (boot.take k) + 1) := by
            have hlt := (List.getElem?_eq_some_iff.1 ht).1
            rw [h.left, List.drop_eq_getElem_cons hlt, (List.getElem?_eq_some_iff.1 ht).2]
          simp only [if_true] at hcount
          by_cases hs : s.race.serial = true
          · have hsys := h.now hs hnd
            rw [hshown] at hsys
            have hearly := g3 (h.race.serial ▸ hs)
            have hsucc := said_succ ht hearly
            have hlen : (said (sent (boot.take k)) ++ chars m).length ≤ 1682 := by
              rw [← hsucc, ← hcount]
              exact g5
            rw [List.length_append] at hlen
            have hsay2 := say_on (fun m => some (f m)) (said (sent (boot.take k))) m m1 m2 m3 (by omega)
            refine ⟨⟨r, texts.drop (sent (boot.take k) + 1), holding (said (sent (boot.take k)) ++ chars m)⟩, k + 1, ?_, ?_, e1⟩
            · rw [step_race e1]
              unfold follow
              rw [hsay, if_pos rfl, hleft, hsys]
              dsimp only
              rw [hsay2]
            · refine ⟨hrg.2, by rw [hcount], fun hf => ?_, fun _ _ => ?_, fun hd => ?_, fun _ => ?_⟩
              · rw [hser, hs] at hf
                cases hf
              · unfold shown
                dsimp only
                rw [hrg.1, hcount, hsucc]
                simp
              · have := hrg.1.symm.trans hd
                cases this
              · have := h.hist hs
                rw [hsys] at this
                exact hist_step (cstring true m m1) hsay2 this
          · have hs0 : s.race.serial = false := by simpa using hs
            refine ⟨⟨r, texts.drop (sent (boot.take k) + 1), off⟩, k + 1, ?_, ?_, e1⟩
            · rw [step_race e1]
              unfold follow
              rw [hsay, if_pos rfl, hleft, h.off hs0]
              dsimp only
              rw [say_off _ true m m1]
            · refine ⟨hrg.2, by rw [hcount], fun _ => rfl, fun hf => ?_, fun hd => ?_, fun hf => ?_⟩
              · rw [hser, hs0] at hf; cases hf
              · have := hrg.1.symm.trans hd
                cases this
              · rw [hser, hs0] at hf; cases hf
      · have hsay : saying s.race (.init hw) = false := by simp [saying, hr, hst]
        simp only [hst, if_false, Nat.add_zero] at hcount
        rcases h1 with ⟨h1, h2⟩ | ⟨-, h1, h2⟩
        · have hstuck : ¬ (s.race.init = .goes ∧ r.init = .stuck) := by
            rintro ⟨-, b⟩
            rw [h1] at b
            cases b
          have hnd' : r.init ≠ .done := by rw [h1]; simp
          by_cases hs : r.serial = true
          · have key : ({ s.sys with log := { s.sys.log with enableSerial := true } } : Sys) =
                holding (said (sent (boot.take (k + 1)))) ∧
                ∃ evs, (∀ e ∈ evs, CString e) ∧
                  Sys.start.run (fun m => some (f m)) evs = .ok (holding (said (sent (boot.take (k + 1))))) := by
              rw [hcount]
              by_cases hs' : s.race.serial = true
              · have hsys := h.now hs' hnd
                rw [hshown] at hsys
                have hh := h.hist hs'
                rw [hsys] at hh ⊢
                exact ⟨rfl, hh⟩
              · have hs0 : s.race.serial = false := by simpa using hs'
                have hlock : st = .op (.hw .logLock) := by
                  rcases hserial with h3 | ⟨h3, -⟩ | ⟨h3, -⟩
                  · rw [hs, hs0] at h3; cases h3
                  · exact h3
                  · exact h3
                have hnone : said (sent (boot.take k)) = [] := by
                  rw [g2 (hlock ▸ hat)]
                  unfold said
                  rw [List.drop_eq_nil_of_le (List.length_take_le _ _)]
                  rfl
                rw [h.off hs0, hnone]
                exact ⟨rfl, [], by simp, rfl⟩
            refine ⟨⟨r, s.left, holding (said (sent (boot.take (k + 1))))⟩, k + 1, ?_, ?_, e1⟩
            · rw [step_race e1]
              unfold follow
              rw [hsay, hskip, if_neg Bool.false_ne_true, if_neg Bool.false_ne_true, if_neg hstuck, if_pos hs, key.1]
            · refine ⟨h2, by rw [h.left, hcount], fun hf => absurd (hf.symm.trans hs) Bool.false_ne_true,
                fun _ _ => ?_, fun hd => absurd hd hnd', fun _ => key.2⟩
              unfold shown
              dsimp only
              rw [h1]
              simp
          · have hs0 : s.race.serial = false := by
              rcases hserial with h3 | ⟨-, h3, -⟩ | ⟨-, h3⟩
              · rw [← h3]; simpa using hs
              · exact absurd h3 hs
              · exact absurd h3 hs
            refine ⟨⟨r, s.left, s.sys⟩, k + 1, ?_, ?_, e1⟩
            · rw [step_race e1]
              unfold follow
              rw [hsay, hskip, if_neg Bool.false_ne_true, if_neg Bool.false_ne_true, if_neg hstuck, if_neg hs]
            · exact ⟨h2, by rw [h.left, hcount], fun _ => h.off hs0, fun hf => absurd hf hs,
                fun hd => absurd hd hnd', fun hf => absurd hf hs⟩
        · -- failure
          have hser : r.serial = s.race.serial := by rw [h2.serial, h.race.serial]
          have hnd' : r.init ≠ .done := by rw [h1]; simp
          by_cases hs : r.serial = true
          · have hs' : s.race.serial = true := hser ▸ hs
            have hsys := h.now hs' hnd
            rw [hshown] at hsys
            have hfree : r.holder .log = none := by
              have hlog := h2.log hnd'
              have : StartRace.locked (boot.take k) = false := by
                by_contra hl
                have hl' : StartRace.locked (boot.take k) = true := by simpa using hl
                exact locked_not_hw k hk hl' st hat (by
                  cases st with
                  | op o =>
                    cases o with
                    | hw x => exact ⟨x, rfl⟩
                    | _ => simp only [StartRace.initStep] at e0; injection e0 with e0; rw [← e0] at h1; simp [StartRace.put, hg] at h1
                  | logSend => exact absurd rfl hst
                  | logTake =>
                    simp only [StartRace.initStep] at e0
                    split at e0 <;> (injection e0 with e0; rw [← e0] at h1; simp [StartRace.hold, hg] at h1)
                  | _ => simp only [StartRace.initStep] at e0; injection e0 with e0; rw [← e0] at h1; simp [StartRace.hold, hg] at h1)
              rw [this] at hlog
              simpa using hlog
            have hfail := fail_on (fun m => some (f m)) (said (sent (boot.take k))) g4
            refine ⟨⟨r, s.left, holding (said (sent (boot.take k)) ++ complaint)⟩, k, ?_, ?_, e1⟩
            · rw [step_race e1]
              unfold follow
              rw [hsay, hskip, if_neg Bool.false_ne_true, if_neg Bool.false_ne_true, if_pos ⟨hg, h1⟩, hfree, hsys]
              simp only [decide_true]
              rw [hfail]
            · refine ⟨h2, h.left, fun hf => absurd (hf.symm.trans hs) Bool.false_ne_true, fun _ _ => ?_,
                fun hd => absurd hd hnd', fun _ => ?_⟩
              · unfold shown
                dsimp only
                rw [h1]
                simp
              · have hh := h.hist hs'
                rw [hsys] at hh
                exact hist_fail failure (fun m hm => (failure_fits m hm).1) hfail hh
          · have hs0 : s.race.serial = false := by rw [← hser]; simpa using hs
            refine ⟨⟨r, s.left, off⟩, k, ?_, ?_, e1⟩
            · rw [step_race e1]
              unfold follow
              rw [hsay, hskip, if_neg Bool.false_ne_true, if_neg Bool.false_ne_true, if_pos ⟨hg, h1⟩, h.off hs0,
                fail_off]
            · exact ⟨h2, h.left, fun _ => rfl, fun hf => absurd hf hs, fun hd => absurd hd hnd',
                fun hf => absurd hf hs⟩
  · -- not the init task, or it does nothing
    obtain ⟨r, k', e1, h1, p1, -, -⟩ := StartRace.step_inv h.race e
    by_cases hi : ∃ hw, e = .init hw
    · obtain ⟨hw, rfl⟩ := hi
      have hg : s.race.init ≠ .goes := fun hg => hinit ⟨⟨hw, rfl⟩, hg⟩
      have e2 : StartRace.step s.race (.init hw) = .ok s.race := by simp [StartRace.step, hg]
      exact stay s.race e2 h.race (by simp [saying, hg]) hskip rfl
    · have hne : e ≠ .init true ∧ e ≠ .init false := ⟨fun h => hi ⟨_, h⟩, fun h => hi ⟨_, h⟩⟩
      obtain ⟨q1, q2⟩ := p1 hne
      subst q1
      refine stay r e1 h1 ?_ hskip q2
      cases e with
      | init hw => exact absurd ⟨hw, rfl⟩ hi
      | _ => rfl

/-- An event of the PC interface's task changes the log only, and only after start-up. -/
theorem pc_inv {f : List UInt8 → UInt32} {s : St} {k : Nat} (h : Inv f s k) {x : LogStream.Ev} (hx : CString x)
    (hr : StartRace.MayRun s.race .pc) {y : Sys} (hy : s.sys.step (fun m => some (f m)) x = .ok y) :
    Inv f { s with sys := y } k := by
  have hd : s.race.init = .done := by
    by_contra hd
    exact h.race.notRun hd (by decide) hr
  have hk : k = boot.length := by
    rcases h.race.init with e | e | e
    · rw [e] at hd; cases hd
    · rw [e] at hd; cases hd
    · exact e.2
  have hser : s.race.serial = true := by rw [h.race.serial, hk, List.take_length, serial_end]
  exact ⟨h.race, h.left, fun hf => absurd (hf.symm.trans hser) Bool.false_ne_true, fun _ hn => absurd hd hn,
    fun _ => (h.fin hd).trans (accepted_grows _ _ _ _ hx hy), fun _ => hist_step hx hy (h.hist hser)⟩

theorem step_keeps {f : List UInt8 → UInt32} {s s' : St} {k : Nat} (h : Inv f s k) (e : Ev) (he : Proper e)
    (hs : step (fun m => some (f m)) s e = .ok s') :
    (∃ k', Inv f s' k') ∧ (s.race.init = .stuck → s'.race.init = .stuck) := by
  cases e with
  | race e =>
    obtain ⟨s1, k1, e1, h1, e2⟩ := race_inv h e
    rw [e1] at hs
    injection hs with hs
    subst hs
    refine ⟨⟨k1, h1⟩, fun hst => ?_⟩
    obtain ⟨r, k', q1, -, q2, -, -⟩ := StartRace.step_inv h.race e
    rw [e2] at q1
    injection q1 with q1
    subst q1
    by_cases hi : ∃ hw, e = .init hw
    · obtain ⟨hw, rfl⟩ := hi
      have : StartRace.step s.race (.init hw) = .ok s.race := by simp [StartRace.step, hst]
      rw [this] at e2
      injection e2 with e2
      rw [← e2]
      exact hst
    · exact (q2 ⟨fun h => hi ⟨_, h⟩, fun h => hi ⟨_, h⟩⟩).2.trans hst
  | round =>
    simp only [step] at hs
    split_ifs at hs with hr
    · cases hy : s.sys.step (fun m => some (f m)) .round with
      | error u => rw [hy] at hs; simp at hs
      | ok y =>
        rw [hy] at hs
        injection hs with hs
        subst hs
        exact ⟨⟨k, pc_inv h (x := .round) (by simp [CString]) hr hy⟩, fun hst => hst⟩
    · injection hs with hs
      subst hs
      exact ⟨⟨k, h⟩, fun hst => hst⟩
  | print ok mem =>
    simp only [step] at hs
    split_ifs at hs with hr
    · cases hy : s.sys.step (fun m => some (f m)) (.print ok mem) with
      | error u => rw [hy] at hs; simp at hs
      | ok y =>
        rw [hy] at hs
        injection hs with hs
        subst hs
        exact ⟨⟨k, pc_inv h (x := .print ok mem) (by simpa [Proper, CString] using he) hr hy⟩, fun hst => hst⟩
    · injection hs with hs
      subst hs
      exact ⟨⟨k, h⟩, fun hst => hst⟩

theorem run_keeps {f : List UInt8 → UInt32} (evs : List Ev) (he : ∀ e ∈ evs, Proper e) {s s' : St} {k : Nat}
    (h : Inv f s k) (hr : run (fun m => some (f m)) s evs = .ok s') :
    (∃ k', Inv f s' k') ∧ (s.race.init = .stuck → s'.race.init = .stuck) := by
  induction evs generalizing s k with
  | nil =>
    simp only [run, List.foldlM_nil, pure, Except.pure, Except.ok.injEq] at hr
    subst hr
    exact ⟨⟨k, h⟩, fun h => h⟩
  | cons e evs ih =>
    unfold run at hr ih
    rw [List.foldlM_cons] at hr
    cases h1 : step (fun m => some (f m)) s e with
    | error u => rw [h1] at hr; simp [bind, Except.bind] at hr
    | ok s1 =>
      rw [h1] at hr
      obtain ⟨⟨k1, g1⟩, g2⟩ := step_keeps h e (he e List.mem_cons_self) h1
      obtain ⟨g3, g4⟩ := ih (fun x hx => he x (List.mem_cons_of_mem _ hx)) g1 hr
      exact ⟨g3, fun hst => g4 (g2 hst)⟩

/-! ## C164 -/

/-- The text on its way to the PC or there already: the frames sent and what waits behind them. -/
def forPc (s : St) : List UInt8 := s.sys.frames.flatMap (fun m => (m.map LogStream.text).getD []) ++ s.sys.log.stream

/-- **The report of a start-up is complete.** In every interleaving of start-up, tasks and interrupts, when start-up
is complete the text for the PC begins with all lines of the report, none cut and none missing, although nothing is
taken out of the stream while start-up goes on; all frames are valid log frames for the PC. -/
theorem C164_report (f : List UInt8 → UInt32) (evs : List Ev) (he : ∀ e ∈ evs, Proper e) (s : St)
    (hr : run (fun m => some (f m)) start evs = .ok s) (hd : s.race.init = .done) :
    (∃ more, forPc s = report ++ more) ∧
    ∀ m ∈ s.sys.frames, ∃ frame, m = some frame ∧ FrameSpec.Valid f 43 frame ∧
      frame.take 5 = [0x3A, 0x00, 0x02, 0x00, 0x02] := by
  obtain ⟨⟨k, h⟩, -⟩ := run_keeps evs he (start_inv f) hr
  have hk : k = boot.length := by
    rcases h.race.init with e | e | e
    · rw [e] at hd; cases hd
    · rw [e] at hd; cases hd
    · exact e.2
  obtain ⟨evs', h1, h2⟩ := h.hist (by rw [h.race.serial, hk, List.take_length, serial_end])
  obtain ⟨g1, g2, -⟩ := LogStream.C47_log_stream f evs' h1 s.sys h2
  obtain ⟨more, hm⟩ := h.fin hd
  exact ⟨⟨more, by rw [forPc, ← g2, hm]⟩, g1⟩

/-- **Until start-up is complete the PC gets nothing**, and what waits for it is the beginning of the report (or
nothing, before serial logging is on). -/
theorem C164_nothing_before (f : List UInt8 → UInt32) (evs : List Ev) (he : ∀ e ∈ evs, Proper e) (s : St)
    (hr : run (fun m => some (f m)) start evs = .ok s) (hd : s.race.init = .goes) :
    s.sys.frames = [] ∧ s.sys.log.stream <+: report := by
  obtain ⟨⟨k, h⟩, -⟩ := run_keeps evs he (start_inv f) hr
  have hnd : s.race.init ≠ .done := by rw [hd]; simp
  cases hs : s.race.serial with
  | false => rw [h.off hs]; exact ⟨rfl, List.nil_prefix⟩
  | true =>
    rw [h.now hs hnd]
    refine ⟨rfl, ?_⟩
    show shown s k <+: report
    rw [shown, if_neg (by rw [hd]; simp), List.append_nil]
    exact said_prefix _

theorem run_append (crc : List UInt8 → Option UInt32) (s s1 : St) (l l' : List Ev) (h : run crc s l = .ok s1) :
    run crc s (l ++ l') = run crc s1 l' := by
  unfold run at *
  rw [List.foldlM_append, h]
  rfl

/-- Rounds of the PC interface's task are rounds of the log. -/
theorem run_rounds (crc : List UInt8 → Option UInt32) (n : Nat) (s : St) (hp : StartRace.MayRun s.race .pc) (y : Sys)
    (h : s.sys.run crc (List.replicate n .round) = .ok y) :
    run crc s (List.replicate n .round) = .ok { s with sys := y } := by
  induction n generalizing s with
  | zero =>
    simp only [Sys.run, List.replicate_zero, List.foldlM_nil, pure, Except.pure, Except.ok.injEq] at h
    subst h
    rfl
  | succ n ih =>
    unfold Sys.run run at *
    rw [List.replicate_succ, List.foldlM_cons] at h ⊢
    cases h1 : s.sys.step crc .round with
    | error u => rw [h1] at h; simp [bind, Except.bind] at h
    | ok y1 =>
      rw [h1] at h
      have e : step crc s .round = .ok { s with sys := y1 } := by
        simp only [step]
        rw [if_pos hp, h1]
      rw [e]
      exact ih { s with sys := y1 } hp h

/-- **And it is sent**: once start-up is complete and the PC interface's task gets the processor, finitely many frames
carry the whole report to the PC. -/
theorem C164_sent (f : List UInt8 → UInt32) (evs : List Ev) (he : ∀ e ∈ evs, Proper e) (s : St)
    (hr : run (fun m => some (f m)) start evs = .ok s) (hd : s.race.init = .done) (hp : StartRace.MayRun s.race .pc) :
    ∃ n s', run (fun m => some (f m)) s (List.replicate n .round) = .ok s' ∧ s'.sys.log.stream = [] ∧
      report <+: s'.sys.frames.flatMap (fun m => (m.map LogStream.text).getD []) ∧ s'.race = s.race := by
  obtain ⟨⟨k, h⟩, -⟩ := run_keeps evs he (start_inv f) hr
  have hk : k = boot.length := by
    rcases h.race.init with e | e | e
    · rw [e] at hd; cases hd
    · rw [e] at hd; cases hd
    · exact e.2
  obtain ⟨evs', h1, h2⟩ := h.hist (by rw [h.race.serial, hk, List.take_length, serial_end])
  obtain ⟨-, -, n, y, g1, g2, g3⟩ := LogStream.C47_log_stream f evs' h1 s.sys h2
  exact ⟨n, _, run_rounds _ n s hp y g1, g2, by rw [show ({ s with sys := y } : St).sys = y from rfl, g3]; exact h.fin hd, rfl⟩

/-- **On the screen**: what the log viewer prints, when the frames of a completed start-up reach it between any state
frames (under the conditions of C85) and nothing of the log is waiting, begins with the report, and nothing is shown
in the colour of failures. -/
theorem C164_screen (evs : List Ev) (he : ∀ e ∈ evs, Proper e) (s : St)
    (hr : run (fun m => some (Crc.hal m)) start evs = .ok s) (hd : s.race.init = .done)
    (hempty : s.sys.log.stream = []) (fs : List (List UInt8)) (hfs : (fs.filter (·.length = 43)).map some = s.sys.frames)
    (hother : ∀ f ∈ fs, f.length ≠ 43 → PcTool.StateFrame f ∧ (f.drop 11).take 5 ≠ [0x3A, 0x00, 0x02, 0x00, 0x02])
    (honly : ∀ f ∈ fs, PcSpec.OnlyAtEnd f) (chunks : List (List UInt8)) (hch : chunks.flatten = fs.flatten) :
    report <+: ((PcTool.delivered PcTool.logCfg chunks).map PcTool.showLog).flatMap (fun x => x.1.filter (· ≠ 0)) ∧
    ∀ x ∈ (PcTool.delivered PcTool.logCfg chunks).map PcTool.showLog, x.2 = false := by
  obtain ⟨⟨k, h⟩, -⟩ := run_keeps evs he (start_inv _) hr
  have hk : k = boot.length := by
    rcases h.race.init with e | e | e
    · rw [e] at hd; cases hd
    · rw [e] at hd; cases hd
    · exact e.2
  obtain ⟨evs', h1, h2⟩ := h.hist (by rw [h.race.serial, hk, List.take_length, serial_end])
  obtain ⟨g1, g2⟩ := PcTool.C85_log_text_partial evs' h1 s.sys h2 fs hfs hother honly chunks hch
  refine ⟨?_, g2⟩
  rw [hempty, List.append_nil] at g1
  rw [← g1]
  exact h.fin hd

/-! ## C165 -/

/-- The PC has been told of the failure. -/
def Told (s : St) : Prop :=
  BootLogSpec.ascii "ECU Failed to initialize" <:+: s.sys.frames.flatMap (fun m => (m.map LogStream.text).getD [])

/-- C165 in full: after a failed start-up the PC is told, sooner or later. -/
def C165_claim (f : List UInt8 → UInt32) : Prop :=
  ∀ evs : List Ev, (∀ e ∈ evs, Proper e) → ∀ s, run (fun m => some (f m)) start evs = .ok s → s.race.init = .stuck →
    ∃ evs' s', (∀ e ∈ evs', Proper e) ∧ run (fun m => some (f m)) s evs' = .ok s' ∧ Told s'

/-- **C165 is false for every failed start-up**: whatever happens afterwards, no frame with log text ever leaves. The
init task loops for ever at the highest priority and the PC interface's task never runs. -/
theorem C165_silent (f : List UInt8 → UInt32) (evs evs' : List Ev) (he : ∀ e ∈ evs, Proper e) (he' : ∀ e ∈ evs', Proper e)
    (s s' : St) (hr : run (fun m => some (f m)) start evs = .ok s) (hst : s.race.init = .stuck)
    (hr' : run (fun m => some (f m)) s evs' = .ok s') : s'.sys.frames = [] ∧ ¬ Told s' := by
  obtain ⟨⟨k, h⟩, -⟩ := run_keeps evs he (start_inv f) hr
  obtain ⟨⟨k', h'⟩, h2⟩ := run_keeps evs' he' h hr'
  have hst' := h2 hst
  have hf : s'.sys.frames = [] := by
    cases hs : s'.race.serial with
    | false => rw [h'.off hs]; rfl
    | true => rw [h'.now hs (by rw [hst']; simp)]; rfl
  refine ⟨hf, fun ht => ?_⟩
  unfold Told at ht
  rw [hf] at ht
  have := ht.length_le
  simp [BootLogSpec.ascii] at this

/-- **What holds: the text is ready.** In a start-up that fails after serial logging is on, the stream holds the report
up to the last message before the failure, whole, and then the two lines of the failure. (They name the watchdog
whatever has failed.) -/
theorem C165_waiting_partial (f : List UInt8 → UInt32) (evs : List Ev) (he : ∀ e ∈ evs, Proper e) (s : St)
    (hr : run (fun m => some (f m)) start evs = .ok s) (hst : s.race.init = .stuck) (hs : s.race.serial = true) :
    ∃ sofar, sofar <+: report ∧ s.sys.log.stream = sofar ++ complaint := by
  obtain ⟨⟨k, h⟩, -⟩ := run_keeps evs he (start_inv f) hr
  refine ⟨said (sent (boot.take k)), said_prefix _, ?_⟩
  rw [h.now hs (by rw [hst]; simp)]
  show shown s k = _
  rw [shown, if_pos hst]

/-! ## Such histories exist -/

theorem goes_on (f : List UInt8 → UInt32) (k : Nat) (hk : k ≤ boot.length) :
    ∃ s, run (fun m => some (f m)) start (List.replicate k (.race (.init true))) = .ok s ∧ s.race.init = .goes ∧
      Inv f s k := by
  induction k with
  | zero => exact ⟨start, rfl, rfl, start_inv f⟩
  | succ k ih =>
    obtain ⟨s, h1, h2, h3⟩ := ih (Nat.le_of_succ_le hk)
    obtain ⟨s', k', e1, i1, e2⟩ := race_inv h3 (.init true)
    have e : s'.race.init = .goes ∧ k' = k + 1 := by
      obtain ⟨r, j, q1, q2, -, q3, -⟩ := StartRace.step_inv h3.race (.init true)
      rw [e2] at q1
      injection q1 with q1
      subst q1
      obtain ⟨q4, q5⟩ := (q3 rfl h2).1 hk
      refine ⟨q5, ?_⟩
      have a := i1.race.rest
      rw [q2.rest, q4] at a
      have b := congrArg List.length a
      rw [List.length_drop, List.length_drop] at b
      have := i1.race.le
      omega
    refine ⟨s', ?_, e.1, e.2 ▸ i1⟩
    rw [List.replicate_succ', run_append _ _ _ _ _ h1]
    show (step _ s _ >>= fun s' => pure s') = _
    rw [e1]
    rfl

/-- A start-up in which nothing fails is complete, and its report waits in full. -/
theorem C164_happens (f : List UInt8 → UInt32) :
    ∃ s, run (fun m => some (f m)) start (List.replicate (boot.length + 1) (.race (.init true))) = .ok s ∧
      s.race.init = .done ∧ s.sys.log.stream = report ∧ StartRace.MayRun s.race .pc := by
  obtain ⟨s, h1, h2, h3⟩ := goes_on f boot.length (Nat.le_refl _)
  have hrest : s.race.rest = [] := by rw [h3.race.rest, List.drop_length]
  have e1 : StartRace.step s.race (.init true) = .ok { s.race with init := .done } := by
    simp [StartRace.step, h2, hrest]
  obtain ⟨s', k', e2, i2, e3⟩ := race_inv h3 (.init true)
  rw [e1] at e3
  injection e3 with e3
  have hser : s.race.serial = true := by rw [h3.race.serial, List.take_length, serial_end]
  have hnd : s.race.init ≠ .done := by rw [h2]; simp
  have hsys := h3.now hser hnd
  rw [shown, if_neg (by rw [h2]; simp), List.append_nil, List.take_length, sent_end, said_end] at hsys
  have hs' : s'.sys = holding report := by
    have := e2
    rw [step_race e1] at this
    unfold follow at this
    have hsay : saying s.race (.init true) = false := by simp [saying, hrest]
    have hskip : skipping s.race (.init true) = false := by simp [skipping]
    rw [hsay, hskip, if_neg Bool.false_ne_true, if_neg Bool.false_ne_true, if_neg (by simp), if_pos hser, hsys] at this
    injection this with this
    rw [← this]
    rfl
  refine ⟨s', ?_, by rw [← e3], by rw [hs']; rfl, ?_⟩
  · rw [List.replicate_succ', run_append _ _ _ _ _ h1]
    show (step _ s _ >>= fun s' => pure s') = _
    rw [e2]
    rfl
  · rw [← e3]
    have hm : s.race.mode .pc ≠ .absent := by
      rw [h3.race.mode, List.take_length]
      exact StartRace.created_end _ (StartRace.mem_tasks _)
    refine ⟨?_, by simp [StartRace.initReady]⟩
    show s.race.mode .pc = .ready
    rcases h3.race.fresh hnd .pc (by decide) with e | e
    · exact absurd e hm
    · exact e

theorem filter_at : ∃ k, k < boot.length ∧ boot[k]? = some (.op (.hw (.canFilter 0))) ∧ serialSet (boot.take k) = true := by
  have h : ∃ k : Fin boot.length, boot[k.1]? = some (.op (.hw (.canFilter 0))) ∧ serialSet (boot.take k.1) = true := by
    decide +kernel
  obtain ⟨k, h⟩ := h
  exact ⟨k.1, k.2, h⟩

/-- A start-up that fails with serial logging on: the filter of the first CAN bus. -/
theorem C165_happens (f : List UInt8 → UInt32) : ∃ evs s, (∀ e ∈ evs, Proper e) ∧
    run (fun m => some (f m)) start evs = .ok s ∧ s.race.init = .stuck ∧ s.race.serial = true := by
  obtain ⟨k, hk, hat, hser⟩ := filter_at
  obtain ⟨s, h1, h2, h3⟩ := goes_on f k (Nat.le_of_lt hk)
  have hrest : s.race.rest = .op (.hw (.canFilter 0)) :: boot.drop (k + 1) := by
    rw [h3.race.rest, List.drop_eq_getElem_cons hk]
    rw [List.getElem?_eq_getElem hk] at hat
    injection hat with hat
    rw [hat]
  have e1 : StartRace.step s.race (.init false) = .ok { s.race with init := .stuck } := by
    simp [StartRace.step, h2, hrest, StartRace.initStep]
  obtain ⟨s', k', e2, i2, e3⟩ := race_inv h3 (.init false)
  rw [e1] at e3
  injection e3 with e3
  refine ⟨List.replicate k (.race (.init true)) ++ [.race (.init false)], s', ?_, ?_, by rw [← e3], ?_⟩
  · intro e he
    rcases List.mem_append.1 he with he | he
    · rw [List.eq_of_mem_replicate he]; trivial
    · rw [List.mem_singleton.1 he]; trivial
  · rw [run_append _ _ _ _ _ h1]
    show (step _ s _ >>= fun s' => pure s') = _
    rw [e2]
    rfl
  · rw [← e3]
    show s.race.serial = true
    rw [h3.race.serial, hser]

/-- C165 in full is false. -/
theorem C165_false (f : List UInt8 → UInt32) : ¬ C165_claim f := by
  intro h
  obtain ⟨evs, s, h1, h2, h3, -⟩ := C165_happens f
  obtain ⟨evs', s', g1, g2, g3⟩ := h evs h1 s h2 h3
  exact (C165_silent f evs evs' h1 g1 s s' h2 h3 g2).2 g3

end Verif.BootLog
