import Verif.Proofs.Term
import Verif.Props.MsgFrame

set_option autoImplicit false

/-!
# C42-C45: the debug terminal
-/

namespace Verif.Term
open MsgFrame FrameSpec TermSpec

/-- A terminal after `DebugTerm` initialisation. -/
def fresh : Term := ⟨fun _ => 0, 0⟩

/-- The error of a computation. -/
def errOf {α : Type} : C α → Option UB
  | .error e => some e
  | .ok _ => none

theorem errOf_some {α : Type} {x : C α} {e : UB} (h : errOf x = some e) : x = .error e := by
  cases x with
  | error e' => injection h with h; rw [h]
  | ok a => simp [errOf] at h

/-! ## C42 -/

/-- A line of nine words writes past the eight argument slots. -/
theorem C42_nine_words_overflow :
    run [str "a b c d ", str "e f g h ", str "i\n"] fresh = .error .oobWrite :=
  errOf_some (by decide +kernel)

/-- `help` for any word that is not a command uses a null command definition. -/
theorem C42_help_unknown (x : List UInt8) (hx : ∀ c ∈ x, c ≠ 0) (hk : x ≠ help ∧ x ≠ setpdm ∧ x ≠ setsdc) :
    processCommand ⟨2, ofWords [help, x]⟩ commands = .error .nullDeref :=
  help_unknown x hx (by unfold Known; tauto)

/-- Two packets reach it, and `help` followed by one space does too. -/
theorem C42_help_breaks :
    run [str "help x\n"] fresh = .error .nullDeref ∧ run [str "help \n"] fresh = .error .nullDeref :=
  ⟨errOf_some (by decide +kernel), errOf_some (by decide +kernel)⟩

theorem cmdHelp_cases (c : Call) : (∃ es, cmdHelp c = .ok es) ∨ cmdHelp c = .error .nullDeref := by
  unfold cmdHelp
  split_ifs
  · exact Or.inl ⟨_, rfl⟩
  · split
    · exact Or.inr rfl
    · exact Or.inl ⟨_, rfl⟩
  · exact Or.inl ⟨_, rfl⟩

theorem run1_cases (c : Call) (e : Exec) : (∃ es, run1 e c = .ok es) ∨ run1 e c = .error .nullDeref := by
  cases e
  · exact cmdHelp_cases c
  · exact Or.inl ⟨_, rfl⟩
  · exact Or.inl ⟨_, rfl⟩

theorem processCommand_cases (c : Call) (ds : List CmdDef) :
    (∃ es, processCommand c ds = .ok es) ∨ processCommand c ds = .error .nullDeref := by
  induction ds with
  | nil => exact Or.inl ⟨_, rfl⟩
  | cons d ds ih =>
    unfold processCommand
    split_ifs
    · rcases run1_cases c d.exec with ⟨es, h⟩ | h
      · rw [h]
        rcases ih with ⟨fs, g⟩ | g
        · rw [g]; exact Or.inl ⟨_, rfl⟩
        · rw [g]; exact Or.inr rfl
      · rw [h]; exact Or.inr rfl
    · exact ih

theorem proc_safe (l : List UInt8) (p : Proc) (h1 : p.cmdBuf.length + l.length ≤ 64)
    (h2 : p.cmdBuf.countP isSep + l.countP isSep ≤ 8) :
    (∃ q, l.foldlM Proc.step p = .ok q ∧ q.begin ≤ max p.begin (p.i + l.length)) ∨
      l.foldlM Proc.step p = .error .nullDeref := by
  induction l generalizing p with
  | nil => exact Or.inl ⟨p, rfl, by simp⟩
  | cons c l ih =>
    rw [List.length_cons] at h1
    have hstep : (∃ q, p.step c = .ok q ∧ q.cmdBuf = p.cmdBuf ++ [c] ∧ q.i = p.i + 1 ∧
        q.begin ≤ max p.begin (p.i + 1)) ∨ p.step c = .error .nullDeref := by
      unfold Proc.step
      rw [if_neg (by show ¬ 64 ≤ _; omega)]
      dsimp only
      split_ifs with hc
      · have hs : isSep c = true := by unfold isSep; simp [hc]
        rw [List.countP_cons_of_pos hs] at h2
        subst hc
        obtain ⟨call, hcall⟩ := tokenise_safe p.cmdBuf (by omega) (by omega)
        rw [hcall]
        dsimp only
        rcases processCommand_cases call commands with ⟨es, he⟩ | he
        · rw [he]; exact Or.inl ⟨_, rfl, rfl, rfl, by dsimp only; omega⟩
        · rw [he]; exact Or.inr rfl
      · exact Or.inl ⟨_, rfl, rfl, rfl, by dsimp only; omega⟩
    rcases hstep with ⟨q, e1, e2, e3, e4⟩ | e
    · rw [foldlM_cons_ok e1]
      rcases ih q (by rw [e2]; simp; omega) (by
        rw [e2, List.countP_append]
        rw [List.countP_cons] at h2
        simp [List.countP_cons]
        omega) with ⟨r, g1, g2⟩ | g
      · refine Or.inl ⟨r, g1, ?_⟩
        rw [e3] at g2
        rw [List.length_cons]
        omega
      · exact Or.inr g
    · refine Or.inr ?_
      rw [List.foldlM_cons, e]
      rfl

/-- Missing from the property: packets making nine separators, and `help` for an
unknown command. Otherwise every payload is handled inside the buffers: if the
buffered text and the payload hold at most eight blanks and newlines, the only
possible error is the null command of `help`, and the buffer index stays in range. -/
theorem C42_safe_partial (t : Term) (p : List UInt8)
    (hsep : (content t ++ text p).countP isSep ≤ 8) :
    (∃ l t', recv t p = .ok (l, t') ∧ t'.next ≤ 64) ∨ recv t p = .error .nullDeref := by
  unfold recv
  split_ifs with h1
  · exact Or.inl ⟨_, _, rfl, Nat.zero_le _⟩
  · have htl := text_length p
    have hb : bufLen = 64 := rfl
    have hcs : ∀ n, t.next + (text p).length = n → n ≤ 64 := by intro n hn; omega
    show (∃ l t', (if t.next + (text p).length = 0 then
        Except.ok ((⟨[], []⟩ : Log), (⟨store t.buf t.next (text p), t.next + (text p).length⟩ : Term))
        else processBuffer ⟨store t.buf t.next (text p), t.next + (text p).length⟩) = .ok (l, t') ∧ t'.next ≤ 64) ∨
      (if t.next + (text p).length = 0 then
        Except.ok ((⟨[], []⟩ : Log), (⟨store t.buf t.next (text p), t.next + (text p).length⟩ : Term))
        else processBuffer ⟨store t.buf t.next (text p), t.next + (text p).length⟩) = .error .nullDeref
    split_ifs with h2
    · exact Or.inl ⟨_, _, rfl, hcs _ rfl⟩
    · have hst := store_content t (text p)
      have hl : (slice (store t.buf t.next (text p)) 0 (t.next + (text p).length)).length =
        t.next + (text p).length := slice_length _ _ _
      rcases proc_safe (slice (store t.buf t.next (text p)) 0 (t.next + (text p).length)) ⟨[], 0, false, 0, ⟨[], []⟩⟩
        (by rw [hl]; simp; omega) (by
          have : slice (store t.buf t.next (text p)) 0 (t.next + (text p).length) = content t ++ text p := hst
          rw [this]; simpa using hsep) with ⟨q, g1, g2⟩ | g
      · refine Or.inl ?_
        unfold processBuffer
        dsimp only
        rw [g1]
        exact ⟨_, _, rfl, by dsimp only; omega⟩
      · refine Or.inr ?_
        unfold processBuffer
        dsimp only
        rw [g]

example : ∃ l t', recv fresh (str "setsdc 1") = .ok (l, t') ∧ t'.next ≤ 64 := by
  rcases C42_safe_partial fresh (str "setsdc 1") (by decide +kernel) with h | h
  · exact h
  · have := congrArg errOf h
    exact absurd this (by decide +kernel)

/-! ## C43 -/

/-- Calls and actions of a run. -/
def outcome (ps : List (List UInt8)) : C (List (Nat × List UInt8) × List Act) :=
  match run ps fresh with
  | .error e => .error e
  | .ok (l, _) => .ok (l.calls.map (fun c => (c.argc, (List.range 8).map (fun j => c.argv 0 j))), vehicle l.effs)

/-- Two lines completed by one packet: the second call starts with the words of the
first, so the second line's command is not executed. -/
theorem C43_two_lines_merge :
    splitLines (str "a\nb\n") [] = ([str "a", str "b"], []) ∧
    outcome [str "a\nb\n"] =
      .ok ([(1, [97, 0, 0, 0, 0, 0, 0, 0]), (2, [97, 0, 0, 0, 0, 0, 0, 0])], []) ∧
    splitLines (str "setsdc 1\nhelp\n") [] = ([str "setsdc 1", str "help"], []) ∧
    outcome [str "setsdc 1", str "\nhelp\n"] = .ok ([(2, [115, 101, 116, 115, 100, 99, 0, 0]),
      (3, [115, 101, 116, 115, 100, 99, 0, 0])], [.ecuError true]) := by decide +kernel

/-- A leading or a trailing blank turns a command into another one. -/
theorem C43_blank_breaks :
    words (str " setsdc 1") [] = words (str "setsdc 1") [] ∧ words (str "setsdc 1 ") [] = words (str "setsdc 1") [] ∧
    (outcome [str "setsdc 1", str "\n"]).toOption.map (·.2) = some [.ecuError true] ∧
    (outcome [str " setsdc ", str "1\n"]).toOption.map (·.2) = some [] ∧
    (outcome [str "setsdc 1", str " \n"]).toOption.map (·.2) = some [] := by decide +kernel

/-- Sixty characters are dropped although the buffer holds sixty-four. -/
theorem C43_full_drops :
    (run [str "aaaaaaaa", str "aaaaaaaa", str "aaaaaaaa", str "aaaaaaaa", str "aaaaaaaa", str "aaaaaaaa", str "aaaaaaaa",
      str "aa\x00\x00\x00\x00\x00\x00", str "\n\x00\x00\x00\x00\x00\x00\x00"] fresh).toOption.map
        (fun r => (r.1.calls.length, r.1.effs.length)) = some (0, 1) := by decide +kernel

/-- Missing from the property: packets that complete two lines, lines with a leading or
trailing blank, with more than eight words, longer than 56 characters, and `help` for
an unknown command. For every other session of packets the commands executed are
exactly the lines received, in order, each with its own words; the actions on the
vehicle are those the lines ask for; and the incomplete line stays buffered. -/
theorem C43_lines_partial (ps : List (List UInt8)) (lines : List (List UInt8)) (rest : List UInt8) (t : Term)
    (ht : t.next = 0) (hp : ∀ p ∈ ps, p.length ≤ 8) (hone : ∀ p ∈ ps, (p.takeWhile (· ≠ 0)).count 10 ≤ 1)
    (hs : splitLines (ps.flatMap fun p => p.takeWhile (· ≠ 0)) [] = (lines, rest))
    (hlen : ∀ l ∈ lines, l.length ≤ 56) (hhead : ∀ l ∈ lines, ∀ c, l.head? = some c → ¬ Blank c)
    (hlast : ∀ l ∈ lines, ∀ c, l.getLast? = some c → ¬ Blank c) (hfew : ∀ l ∈ lines, (words l []).length ≤ 8)
    (hhelp : ∀ l ∈ lines, ∀ x, words l [] = [help, x] → x = help ∨ x = setpdm ∨ x = setsdc)
    (hrest : rest.length ≤ 56) :
    ∃ calls es t', run ps t = .ok (⟨calls, es⟩, t') ∧
      List.Forall₂ (fun l (c : Call) => c.argc = max 1 (words l []).length ∧
        ∀ k j, c.argv k j = ((words l []).getD k []).getD j 0) lines calls ∧
      vehicle es = lines.flatMap (fun l => acts (words l [])) ∧
      slice t'.buf 0 t'.next = rest := by
  have hc : content t = [] := by
    unfold content; rw [ht]; rfl
  have h := run_lines ps t hp hone (by rw [hc]; simp) (by rw [hc]; simp)
  rw [hc] at h
  have hs' : splitLines (ps.flatMap text) [] = (lines, rest) := hs
  rw [hs'] at h
  obtain ⟨calls, es, t', k1, k2, k3, k4, -⟩ :=
    h (fun l hl => ⟨hlen l hl, ⟨hhead l hl, hlast l hl, hfew l hl⟩, hhelp l hl⟩) hrest
  exact ⟨calls, es, t', k1, k2, k3, k4⟩

example : ∃ calls es t', run [str "setsdc 1", str "\nsetpd", str "m 1 0 1 ", str "1 0 0\nhe"] fresh =
      .ok (⟨calls, es⟩, t') ∧
    vehicle es = [.ecuError true, .power 0 true, .power 1 false, .power 2 true, .power 3 true, .power 4 false,
      .power 5 false] ∧ slice t'.buf 0 t'.next = str "he" := by
  obtain ⟨c, e, t', h1, _, h2, h3⟩ := C43_lines_partial
    [str "setsdc 1", str "\nsetpd", str "m 1 0 1 ", str "1 0 0\nhe"] [str "setsdc 1", str "setpdm 1 0 1 1 0 0"] (str "he")
    fresh rfl (by decide +kernel) (by decide +kernel) (by decide +kernel) (by decide +kernel)
    (by decide +kernel) (by decide +kernel) (by decide +kernel)
    (by
      intro l hl x hx
      exfalso
      simp only [List.mem_cons, List.not_mem_nil, or_false] at hl
      rcases hl with rfl | rfl
      · have : (words (str "setsdc 1") []).head? = some help := by rw [hx]; rfl
        exact absurd this (by decide +kernel)
      · have : (words (str "setpdm 1 0 1 1 0 0") []).head? = some help := by rw [hx]; rfl
        exact absurd this (by decide +kernel))
    (by decide +kernel)
  refine ⟨c, e, t', h1, ?_, h3⟩
  rw [h2]
  decide +kernel

/-! ## C44 -/

/-- The value of an argument: its first character. -/
def firstBit (c : UInt8) : Option Bool := if c = 48 then some false else if c = 49 then some true else none

theorem param_firstBit (c : UInt8) : param c = firstBit c := rfl

/-- For every argument vector, `setpdm` sets all six channels to the six argument
values if there are exactly six arguments and all begin with 0 or 1, and does nothing
to the vehicle otherwise; `setsdc` sets the ECU error to its argument's value if there
is exactly one argument and it begins with 0 or 1, and does nothing otherwise; `help`
never does anything to the vehicle. -/
theorem C44_all_or_nothing (c : Call) :
    ((c.argc = 7 ∧ ∀ i < 6, c.argv (i + 1) 0 = 48 ∨ c.argv (i + 1) 0 = 49) →
      vehicle (cmdSetpdm c) = (List.range 6).map fun i => .power i (c.argv (i + 1) 0 = 49)) ∧
    (¬ (c.argc = 7 ∧ ∀ i < 6, c.argv (i + 1) 0 = 48 ∨ c.argv (i + 1) 0 = 49) → vehicle (cmdSetpdm c) = []) ∧
    ((c.argc = 2 ∧ (c.argv 1 0 = 48 ∨ c.argv 1 0 = 49)) → vehicle (cmdSetsdc c) = [.ecuError (c.argv 1 0 = 49)]) ∧
    (¬ (c.argc = 2 ∧ (c.argv 1 0 = 48 ∨ c.argv 1 0 = 49)) → vehicle (cmdSetsdc c) = []) ∧
    ∀ es, cmdHelp c = .ok es → vehicle es = [] := by
  have hsome : ∀ x : UInt8, (param x).isSome = true ↔ x = 48 ∨ x = 49 := by
    intro x
    unfold param
    split_ifs with h1 h2
    · simp [h1]
    · simp [h2]
    · simp; exact ⟨h1, h2⟩
  have hval : ∀ x : UInt8, (param x).getD false = decide (x = 49) := by
    intro x
    unfold param
    split_ifs with h1 h2
    · subst h1; rfl
    · subst h2; rfl
    · simp; exact h2
  have hiff : (c.argc = 7 ∧ ∀ i ∈ List.range 6, (param (c.argv (i + 1) 0)).isSome) ↔
      (c.argc = 7 ∧ ∀ i < 6, c.argv (i + 1) 0 = 48 ∨ c.argv (i + 1) 0 = 49) := by
    simp only [hsome, List.mem_range]
  refine ⟨fun h => ?_, fun h => ?_, fun h => ?_, fun h => ?_, fun es h => vehicle_help h⟩
  · rw [vehicle_setpdm, if_pos (hiff.mpr h)]
    simp only [hval]
  · rw [vehicle_setpdm, if_neg (fun hc => h (hiff.mp hc))]
  · rw [vehicle_setsdc, if_pos ⟨h.1, (hsome _).mpr h.2⟩, hval]
  · rw [vehicle_setsdc, if_neg (fun hc => h ⟨hc.1, (hsome _).mp hc.2⟩)]

/-- The same from the words of a line: the command executed for a line acts on the
vehicle as the line says, whatever the words. -/
theorem C44_line (ws : List (List UInt8)) (hw : ∀ w ∈ ws, ∀ c ∈ w, c ≠ 0)
    (hk : ∀ x, ws = [help, x] → x = help ∨ x = setpdm ∨ x = setsdc) :
    ∃ es, processCommand ⟨max 1 ws.length, fun k j => (ws.getD k []).getD j 0⟩ commands = .ok es ∧
      vehicle es = acts ws := exec_words ws hw hk

example : ∃ es, processCommand ⟨3, ofWords [str "setsdc", str "1", str "x"]⟩ commands = .ok es ∧ vehicle es = [] := by
  obtain ⟨es, h1, h2⟩ := C44_line [str "setsdc", str "1", str "x"] (by decide +kernel) (by
    intro x hx; simp at hx)
  exact ⟨es, h1, h2.trans (by decide +kernel)⟩

theorem mapM_some {α β : Type} (l : List α) (f : α → Option β) (g : α → β) (h : ∀ i ∈ l, f i = some (g i)) :
    l.mapM f = some (l.map g) := by
  induction l with
  | nil => rfl
  | cons a l ih =>
    rw [List.mapM_cons, h a (List.mem_cons_self ..), ih fun i hi => h i (List.mem_cons_of_mem _ hi)]
    rfl

theorem mapM_none {α β : Type} (l : List α) (f : α → Option β) (i : α) (hi : i ∈ l) (h : f i = none) :
    l.mapM f = none := by
  induction l with
  | nil => exact absurd hi (List.not_mem_nil)
  | cons a l ih =>
    rw [List.mapM_cons]
    rcases List.mem_cons.mp hi with rfl | hi
    · rw [h]; rfl
    · rw [ih hi]
      cases f a <;> rfl

theorem flatMap_congr' {α β : Type} (l : List α) (f g : α → List β) (h : ∀ i ∈ l, f i = g i) :
    l.flatMap f = l.flatMap g := by
  induction l with
  | nil => rfl
  | cons a l ih =>
    rw [List.flatMap_cons, List.flatMap_cons, h a (List.mem_cons_self ..), ih fun i hi => h i (List.mem_cons_of_mem _ hi)]

/-- What the operator is told: an accepted `setpdm` sets and reports the six channels one after the other, each with
its number and the value it was set to; an accepted `setsdc` reports the value; a rejected command says why and does
nothing else. -/
theorem C44_answers (c : Call) :
    ((c.argc = 7 ∧ ∀ i < 6, c.argv (i + 1) 0 = 48 ∨ c.argv (i + 1) 0 = 49) →
      cmdSetpdm c = .print (str "Test command executed: set PDM states to\n") :: (List.range 6).flatMap fun i =>
        [.power i (c.argv (i + 1) 0 = 49),
         .print (str ("  PDM channel " ++ toString i ++ (if c.argv (i + 1) 0 = 49 then ": 1\n" else ": 0\n")))]) ∧
    (c.argc ≠ 7 → cmdSetpdm c = [.print (str "Unexpected number of params\n")]) ∧
    ((c.argc = 7 ∧ ∃ i < 6, c.argv (i + 1) 0 ≠ 48 ∧ c.argv (i + 1) 0 ≠ 49) →
      cmdSetpdm c = [.print (str "Param must be 0 or 1\n")]) ∧
    (c.argc = 2 → c.argv 1 0 = 48 → cmdSetsdc c = [.ecuError false, .print (str "  SDC output set to: 0\n")]) ∧
    (c.argc = 2 → c.argv 1 0 = 49 → cmdSetsdc c = [.ecuError true, .print (str "  SDC output set to: 1\n")]) ∧
    (c.argc ≠ 2 → cmdSetsdc c = [.print (str "Unexpected number of params\n")]) ∧
    (c.argc = 2 → c.argv 1 0 ≠ 48 → c.argv 1 0 ≠ 49 → cmdSetsdc c = [.print (str "Param must be 0 or 1\n")]) := by
  have hp : ∀ x : UInt8, x = 48 ∨ x = 49 → param x = some (decide (x = 49)) := by
    rintro x (rfl | rfl) <;> rfl
  have hn : ∀ x : UInt8, x ≠ 48 → x ≠ 49 → param x = none := by
    intro x h1 h2
    unfold param
    rw [if_neg h1, if_neg h2]
  refine ⟨fun h => ?_, fun h => ?_, fun h => ?_, fun h1 h2 => ?_, fun h1 h2 => ?_, fun h => ?_, fun h1 h2 h3 => ?_⟩
  · obtain ⟨ha, hv⟩ := h
    unfold cmdSetpdm
    have hd : ∀ i < 6, ∀ b : Bool,
        (str "  PDM channel " ++ [digit i] ++ str ": " ++ [digit b.toNat] ++ str "\n").take 31 =
          str ("  PDM channel " ++ toString i ++ (if b = true then ": 1\n" else ": 0\n")) := by
      decide +kernel
    rw [if_neg (fun hc => hc ha), mapM_some (List.range 6) _ (fun i => decide (c.argv (i + 1) 0 = 49))
      (fun i hi => hp _ (hv i (List.mem_range.mp hi)))]
    dsimp only
    refine congrArg₂ List.cons rfl ?_
    refine flatMap_congr' (List.range 6) _ _ fun i hi => ?_
    have hi6 := List.mem_range.mp hi
    have hg : ((List.range 6).map fun i => decide (c.argv (i + 1) 0 = 49)).getD i false
        = decide (c.argv (i + 1) 0 = 49) := by
      rw [List.getD_eq_getElem?_getD, List.getElem?_map, List.getElem?_range hi6]
      rfl
    rw [hg, hd i hi6]
    simp only [decide_eq_true_eq]
  · unfold cmdSetpdm
    rw [if_pos h]
  · obtain ⟨ha, i, hi, h1, h2⟩ := h
    unfold cmdSetpdm
    rw [if_neg (fun hc => hc ha)]
    rw [mapM_none _ _ i (List.mem_range.mpr hi) (hn _ h1 h2)]
  · unfold cmdSetsdc
    rw [if_neg (fun hc => hc h1), h2]
    decide +kernel
  · unfold cmdSetsdc
    rw [if_neg (fun hc => hc h1), h2]
    decide +kernel
  · unfold cmdSetsdc
    rw [if_pos h]
  · unfold cmdSetsdc
    rw [if_neg (fun hc => hc h1), hn _ h2 h3]

example : cmdSetsdc ⟨2, ofWords [str "setsdc", str "1"]⟩ = [.ecuError true, .print (str "  SDC output set to: 1\n")] :=
  (C44_answers _).2.2.2.2.1 rfl (by decide +kernel)

/-! ## C45 -/

/-- Texts of 244 characters and more leave the 256-byte frame buffer, whatever the
text: the truncation at 256 is above what fits. -/
theorem C45_overflow (crc : List UInt8 → Option UInt32) (buf msg : List UInt8) (h : 244 ≤ msg.length) :
    debugPrint crc buf msg = .error .oobWrite := by
  unfold debugPrint
  have hp : printMax = 256 := rfl
  dsimp only
  rw [if_pos (by omega)]

/-- Missing from the property: texts of 244 to 255 characters (and truncation of longer
ones). Shorter texts stay in the buffer and are sent as a valid frame to the PC whose
payload is the length, little endian, and the whole text. -/
theorem C45_frame_partial (f : List UInt8 → UInt32) (buf msg : List UInt8) (hb : buf.length = 256)
    (h : msg.length ≤ 243) :
    ∃ frame, debugPrint (fun m => some (f m)) buf msg = .ok (some frame) ∧
      Valid f (msg.length + 13) frame ∧
      frame.take 5 = [0x3A, 0x00, 0x02, 0x00, 0x09] ∧
      (frame.drop 5).take (msg.length + 2) = UInt8.ofNat msg.length :: 0 :: msg := by
  have hp : printMax = 256 := rfl
  have hbl : MsgFrame.bufLen = 1024 := rfl
  have hpl : ([UInt8.ofNat (msg.length % 256), UInt8.ofNat (msg.length / 256 % 256)] ++ msg).length = msg.length + 2 := by
    simp
  have hbt : (buf.take (msg.length + 13)).length =
      ([UInt8.ofNat (msg.length % 256), UInt8.ofNat (msg.length / 256 % 256)] ++ msg).length + 11 := by
    rw [hpl, List.length_take]; omega
  obtain ⟨frame, _, _, _, e1, e2, _, _, e3, _⟩ := C33_round_trip f 0x02 0x09
    ([UInt8.ofNat (msg.length % 256), UInt8.ofNat (msg.length / 256 % 256)] ++ msg) (buf.take (msg.length + 13)) hbt
    (by rw [hpl]; omega) (fun _ => 0)
  have he := encode_eq (fun m => some (f m)) 0x02 0x09
    ([UInt8.ofNat (msg.length % 256), UInt8.ofNat (msg.length / 256 % 256)] ++ msg) (buf.take (msg.length + 13)) hbt
  rw [e1] at he
  rw [hpl] at e2 e3
  refine ⟨frame, ?_, e2, ?_, ?_⟩
  · unfold debugPrint
    have hm : min msg.length printMax = msg.length := by omega
    dsimp only
    rw [hm, if_neg (by omega)]
    rw [← e1]
    unfold encode
    rw [hpl]
  · injection he with he
    rw [he]
    rfl
  · rw [e3, Nat.mod_eq_of_lt (show msg.length < 256 by omega), Nat.div_eq_of_lt (show msg.length < 256 by omega)]
    rfl

example : ∃ frame, debugPrint (fun _ => some 0) (List.replicate 256 0) (str "> ") = .ok (some frame) ∧
    frame.length = 15 := by
  obtain ⟨frame, h1, h2, _⟩ := C45_frame_partial (fun _ => 0) (List.replicate 256 0) (str "> ") (by rw [List.length_replicate])
    (by decide +kernel)
  exact ⟨frame, h1, h2.1⟩

/-- Whether an effect's text fits. -/
def Short : Eff → Prop
  | .print m => m.length ≤ 243
  | _ => True

theorem helpAll_short : ∀ e ∈ helpAll, Short e := by
  intro e he
  unfold helpAll at he
  simp only [List.mem_cons, List.mem_map] at he
  rcases he with rfl | ⟨d, hd, rfl⟩
  · show (str _).length ≤ 243
    decide +kernel
  · show (helpLine d).length ≤ 243
    revert d
    decide +kernel

theorem cmdHelp_short (c : Call) (es : List Eff) (h : cmdHelp c = .ok es) : ∀ e ∈ es, Short e := by
  unfold cmdHelp at h
  split_ifs at h
  · injection h with h; subst h; exact helpAll_short
  · split at h
    · simp at h
    · rename_i d hd
      injection h with h
      subst h
      have hm := List.mem_of_find?_eq_some hd
      have h1 : ∀ d ∈ commands, d.desc.length ≤ 243 ∧ d.help.length ≤ 243 := by decide +kernel
      intro e he
      simp only [List.mem_cons, List.not_mem_nil, or_false] at he
      rcases he with rfl | rfl | rfl
      · exact (h1 d hm).1
      · show (str _).length ≤ 243
        decide +kernel
      · exact (h1 d hm).2
  · injection h with h
    subst h
    intro e he
    rcases List.mem_cons.mp he with rfl | he
    · show (str _).length ≤ 243
      decide +kernel
    · exact helpAll_short e he

theorem cmdSetpdm_short (c : Call) : ∀ e ∈ cmdSetpdm c, Short e := by
  intro e he
  unfold cmdSetpdm at he
  split_ifs at he
  · rw [List.mem_singleton] at he; subst he
    show (str _).length ≤ 243
    decide +kernel
  · split at he
    · rw [List.mem_singleton] at he; subst he
      show (str _).length ≤ 243
      decide +kernel
    · rcases List.mem_cons.mp he with rfl | he
      · show (str _).length ≤ 243
        decide +kernel
      · obtain ⟨i, _, he⟩ := List.mem_flatMap.mp he
        simp only [List.mem_cons, List.not_mem_nil, or_false] at he
        rcases he with rfl | rfl
        · trivial
        · show (List.take _ _).length ≤ 243
          rw [List.length_take]; omega

theorem cmdSetsdc_short (c : Call) : ∀ e ∈ cmdSetsdc c, Short e := by
  intro e he
  unfold cmdSetsdc at he
  split_ifs at he
  · rw [List.mem_singleton] at he; subst he
    show (str _).length ≤ 243
    decide +kernel
  · split at he
    · rw [List.mem_singleton] at he; subst he
      show (str _).length ≤ 243
      decide +kernel
    · simp only [List.mem_cons, List.not_mem_nil, or_false] at he
      rcases he with rfl | rfl
      · trivial
      · show (List.take _ _).length ≤ 243
        rw [List.length_take]; omega

theorem processCommand_short (c : Call) (ds : List CmdDef) (es : List Eff) (h : processCommand c ds = .ok es) :
    ∀ e ∈ es, Short e := by
  induction ds generalizing es with
  | nil =>
    unfold processCommand at h
    injection h with h; subst h; simp
  | cons d ds ih =>
    unfold processCommand at h
    split_ifs at h
    · cases h1 : run1 d.exec c with
      | error e => rw [h1] at h; simp at h
      | ok as =>
        rw [h1] at h
        cases h2 : processCommand c ds with
        | error e => rw [h2] at h; simp at h
        | ok bs =>
          rw [h2] at h
          injection h with h
          subst h
          intro e he
          rcases List.mem_append.mp he with he | he
          · cases hx : d.exec <;> rw [hx] at h1
            · exact cmdHelp_short c as h1 e he
            · injection h1 with h1; subst h1; exact cmdSetpdm_short c e he
            · injection h1 with h1; subst h1; exact cmdSetsdc_short c e he
          · exact ih bs h2 e he
    · exact ih es h

theorem proc_short (l : List UInt8) (p q : Proc) (h : l.foldlM Proc.step p = .ok q)
    (hp : ∀ e ∈ p.log.effs, Short e) : ∀ e ∈ q.log.effs, Short e := by
  induction l generalizing p with
  | nil =>
    have : p = q := by injection h
    subst this; exact hp
  | cons c l ih =>
    rw [List.foldlM_cons] at h
    cases h1 : p.step c with
    | error e => rw [h1] at h; cases h
    | ok r =>
      rw [h1] at h
      refine ih r h ?_
      unfold Proc.step at h1
      split_ifs at h1
      · dsimp only at h1
        split at h1
        · simp at h1
        · split at h1
          · simp at h1
          · rename_i es he
            injection h1 with h1
            subst h1
            intro e hm
            rcases List.mem_append.mp hm with hm | hm
            · exact hp e hm
            · exact processCommand_short _ _ es he e hm
      · injection h1 with h1
        subst h1
        exact hp

theorem recv_short (t t' : Term) (p : List UInt8) (l : Log) (h : recv t p = .ok (l, t')) :
    ∀ e ∈ l.effs, Short e := by
  have hfull : (str "error: buffer full\n").length ≤ 243 := by decide +kernel
  have hprompt : (str "> ").length ≤ 243 := by decide +kernel
  unfold recv at h
  split_ifs at h
  · injection h with h; injection h with h _; subst h
    intro e he
    rw [List.mem_singleton] at he; subst he
    exact hfull
  · dsimp only at h
    split_ifs at h
    · injection h with h; injection h with h _; subst h
      simp
    · unfold processBuffer at h
      split at h
      · simp at h
      · rename_i q hq
        injection h with h
        injection h with h _
        subst h
        intro e he
        rcases List.mem_append.mp he with he | he
        · exact proc_short _ _ q hq (by simp) e he
        · split_ifs at he
          · rw [List.mem_singleton] at he; subst he
            exact hprompt
          · simp at he

/-- Every text the terminal itself prints, in every session, is short enough for
`C45_frame_partial`. -/
theorem C45_terminal_texts_fit (ps : List (List UInt8)) (t t' : Term) (l : Log) (h : run ps t = .ok (l, t'))
    (msg : List UInt8) (hm : Eff.print msg ∈ l.effs) : msg.length ≤ 243 := by
  induction ps generalizing t t' l with
  | nil =>
    injection h with h; injection h with h _; subst h
    simp at hm
  | cons p ps ih =>
    unfold run at h
    cases h1 : recv t p with
    | error e => rw [h1] at h; simp at h
    | ok r =>
      obtain ⟨l1, t1⟩ := r
      rw [h1] at h
      dsimp only at h
      cases h2 : run ps t1 with
      | error e => rw [h2] at h; simp at h
      | ok r =>
        obtain ⟨l2, t2⟩ := r
        rw [h2] at h
        injection h with h; injection h with h _; subst h
        rcases List.mem_append.mp hm with hm | hm
        · exact recv_short t t1 p l1 h1 _ hm
        · exact ih t1 t2 l2 h2 hm

example : (outcome [str "help\n"]).toOption.isSome = true := by decide +kernel

end Verif.Term
