import Verif.Spec.Answers
import Verif.Props.Term

set_option autoImplicit false

/-!
# C162: the terminal answers every line in full
-/

namespace Verif.Term
open MsgFrame FrameSpec TermSpec

/-- An effect as a step of the dialogue. -/
def item : Eff → Item
  | .print m => .says m
  | .ecuError b => .does (.ecuError b)
  | .power i b => .does (.power i b)

theorem help_overview : helpAll.map item = overview := by decide +kernel

theorem help_about (d : CmdDef) (hd : d ∈ commands) :
    ([.print d.desc, .print (str "\n"), .print d.help] : List Eff).map item = about d.name := by
  revert d
  decide +kernel

theorem find_name (x : List UInt8) (hx : ∀ c ∈ x, c ≠ 0) (d : CmdDef)
    (h : commands.find? (fun d => strEq (fun j => x.getD j 0) d.name) = some d) : d ∈ commands ∧ d.name = x := by
  have hm := List.mem_of_find?_eq_some h
  have hs := List.find?_some h
  have hz : ∀ d ∈ commands, ∀ c ∈ d.name, c ≠ 0 := by decide +kernel
  exact ⟨hm, ((strEq_iff x d.name hx (hz d hm)).mp hs).symm⟩

theorem setpdm_lines : ∀ i < 6, ∀ b : Bool,
    (str "  PDM channel " ++ [digit i] ++ str ": " ++ [digit b.toNat] ++ str "\n").take 31 =
      ascii ("  PDM channel " ++ toString i ++ (if b then ": 1\n" else ": 0\n")) := by
  decide +kernel

theorem setpdm_dialogue (as : List (List UInt8)) :
    (cmdSetpdm ⟨as.length + 1, ofWords (setpdm :: as)⟩).map item = dialogue (setpdm :: as) := by
  have d12 : setpdm ≠ help := by decide
  unfold dialogue
  dsimp only
  rw [if_neg d12, if_pos rfl]
  by_cases h6 : as.length = 6
  · obtain ⟨a0, a1, a2, a3, a4, a5, rfl⟩ : ∃ a0 a1 a2 a3 a4 a5, as = [a0, a1, a2, a3, a4, a5] := by
      match as, h6 with
      | [a, b, c, d, e, f], _ => exact ⟨a, b, c, d, e, f, rfl⟩
    unfold cmdSetpdm
    rw [if_neg (by simp)]
    have hm : (List.range 6).mapM (fun i => param (ofWords (setpdm :: [a0, a1, a2, a3, a4, a5]) (i + 1) 0)) =
        [bit a0, bit a1, bit a2, bit a3, bit a4, bit a5].mapM id := by
      rw [← param_bit, ← param_bit, ← param_bit, ← param_bit, ← param_bit, ← param_bit]
      rfl
    dsimp only
    rw [hm]
    simp only [List.map_cons, List.map_nil]
    generalize bit a0 = b0
    generalize bit a1 = b1
    generalize bit a2 = b2
    generalize bit a3 = b3
    generalize bit a4 = b4
    generalize bit a5 = b5
    cases b0 with
    | none => rfl
    | some b0 =>
    cases b1 with
    | none => rfl
    | some b1 =>
    cases b2 with
    | none => rfl
    | some b2 =>
    cases b3 with
    | none => rfl
    | some b3 =>
    cases b4 with
    | none => rfl
    | some b4 =>
    cases b5 with
    | none => rfl
    | some b5 =>
    have hmm : [some b0, some b1, some b2, some b3, some b4, some b5].mapM id = some [b0, b1, b2, b3, b4, b5] := rfl
    rw [hmm]
    rw [show List.range 6 = [0, 1, 2, 3, 4, 5] from rfl]
    simp only [List.map_cons, List.flatMap_cons, List.flatMap_nil, List.append_nil, List.cons_append, List.nil_append,
      List.map_nil, item]
    rw [setpdm_lines 0 (by decide), setpdm_lines 1 (by decide), setpdm_lines 2 (by decide), setpdm_lines 3 (by decide),
      setpdm_lines 4 (by decide), setpdm_lines 5 (by decide)]
    rfl
  · unfold cmdSetpdm
    rw [if_pos (by show as.length + 1 ≠ 7; omega)]
    have hl : (as.map bit).length ≠ 6 := by rw [List.length_map]; exact h6
    generalize as.map bit = bs at hl
    split
    · exact absurd rfl hl
    · exact absurd rfl hl
    · rfl

theorem setsdc_dialogue (as : List (List UInt8)) :
    (cmdSetsdc ⟨as.length + 1, ofWords (setsdc :: as)⟩).map item = dialogue (setsdc :: as) := by
  have d1 : setsdc ≠ help := by decide
  have d2 : setsdc ≠ setpdm := by decide
  unfold dialogue
  dsimp only
  rw [if_neg d1, if_neg d2, if_pos rfl]
  match as with
  | [] => rfl
  | [a] =>
    unfold cmdSetsdc
    have hp : param (ofWords [setsdc, a] 1 0) = bit a := by rw [← param_bit]; rfl
    rw [if_neg (by simp)]
    dsimp only
    rw [hp]
    simp only [List.map_cons, List.map_nil]
    cases bit a with
    | none => rfl
    | some b => cases b <;> decide +kernel
  | a :: b :: as =>
    unfold cmdSetsdc
    rw [if_pos (by simp), List.map_cons, List.map_cons]
    cases bit a <;> rfl

/-- A line is answered as its words say. -/
theorem exec_dialogue (ws : List (List UInt8)) (hw : ∀ w ∈ ws, ∀ c ∈ w, c ≠ 0)
    (hk : ∀ x, ws = [help, x] → Known x) :
    ∃ es, processCommand ⟨max 1 ws.length, ofWords ws⟩ commands = .ok es ∧ es.map item = dialogue ws := by
  cases ws with
  | nil =>
    have h := processCommand_words 1 [] [] (by simp)
    have e : ofWords [] = ofWords [[]] := (ofWords_nil_last []).symm
    refine ⟨[], ?_, rfl⟩
    show processCommand ⟨1, ofWords []⟩ commands = _
    rw [e, h]
    rfl
  | cons w ws =>
    rw [show max 1 (w :: ws).length = ws.length + 1 by simp]
    rw [processCommand_words _ w ws (hw w (by simp))]
    by_cases h1 : w = help
    · subst h1
      rw [if_pos rfl]
      unfold dialogue
      dsimp only
      rw [if_pos rfl]
      unfold cmdHelp
      match ws with
      | [] => exact ⟨_, rfl, help_overview⟩
      | [x] =>
        have hs := (find_known x (hw x (by simp))).mpr (hk x rfl)
        obtain ⟨d, hd⟩ := Option.isSome_iff_exists.mp hs
        obtain ⟨g1, g2⟩ := find_name x (hw x (by simp)) d hd
        have hd' : commands.find? (fun d => strEq ((ofWords [help, x]) 1) d.name) = some d := hd
        rw [if_neg (by simp), if_pos (by simp)]
        dsimp only
        rw [hd']
        exact ⟨_, rfl, by rw [help_about d g1, g2]⟩
      | a :: b :: ws =>
        rw [if_neg (by simp), if_neg (by simp)]
        refine ⟨_, rfl, ?_⟩
        rw [List.map_cons, help_overview]
        rfl
    · rw [if_neg h1]
      by_cases h2 : w = setpdm
      · subst h2
        rw [if_pos rfl]
        exact ⟨_, rfl, setpdm_dialogue ws⟩
      · rw [if_neg h2]
        by_cases h3 : w = setsdc
        · subst h3
          rw [if_pos rfl]
          exact ⟨_, rfl, setsdc_dialogue ws⟩
        · rw [if_neg h3]
          refine ⟨[], rfl, ?_⟩
          unfold dialogue
          dsimp only
          rw [if_neg h1, if_neg h2, if_neg h3]
          rfl

theorem mem_lines (a cur : List UInt8) : ∀ l ∈ (splitLines a cur).1, ∀ c ∈ l, c ∈ cur ∨ c ∈ a := by
  induction a generalizing cur with
  | nil => intro l hl; cases hl
  | cons x a ih =>
    intro l hl c hc
    unfold splitLines at hl
    split_ifs at hl with h
    · rcases List.mem_cons.1 hl with rfl | hl
      · exact Or.inl hc
      · rcases ih [] l hl c hc with h' | h'
        · cases h'
        · exact Or.inr (List.mem_cons_of_mem _ h')
    · rcases ih (cur ++ [x]) l hl c hc with h' | h'
      · rcases List.mem_append.1 h' with h' | h'
        · exact Or.inl h'
        · rw [List.mem_singleton] at h'
          exact Or.inr (h' ▸ List.mem_cons_self ..)
      · exact Or.inr (List.mem_cons_of_mem _ h')

/-- **C162.**  Take any session of packets of the kind C43 covers. What the terminal does and says is
exactly the dialogue of the lines received, line by line in the order received, with the prompt after
each line, and nothing else. Every text is sent, whatever the frame buffer held before, as one valid frame
to the PC that carries the whole text and its length. -/
theorem C162_answers (ps : List (List UInt8)) (lines : List (List UInt8)) (rest : List UInt8) (t : Term)
    (ht : t.next = 0) (hp : ∀ p ∈ ps, p.length ≤ 8) (hone : ∀ p ∈ ps, (p.takeWhile (· ≠ 0)).count 10 ≤ 1)
    (hs : splitLines (ps.flatMap fun p => p.takeWhile (· ≠ 0)) [] = (lines, rest))
    (hlen : ∀ l ∈ lines, l.length ≤ 56) (hhead : ∀ l ∈ lines, ∀ c, l.head? = some c → ¬ Blank c)
    (hlast : ∀ l ∈ lines, ∀ c, l.getLast? = some c → ¬ Blank c) (hfew : ∀ l ∈ lines, (words l []).length ≤ 8)
    (hhelp : ∀ l ∈ lines, ∀ x, words l [] = [help, x] → x = help ∨ x = setpdm ∨ x = setsdc)
    (hrest : rest.length ≤ 56) :
    ∃ calls es t', run ps t = .ok (⟨calls, es⟩, t') ∧
      es.map item = lines.flatMap (fun l => dialogue (words l []) ++ [prompt]) ∧
      ∀ m, Eff.print m ∈ es → ∀ (f : List UInt8 → UInt32) (buf : List UInt8), buf.length = 256 →
        ∃ frame, debugPrint (fun m => some (f m)) buf m = .ok (some frame) ∧
          Valid f (m.length + 13) frame ∧ frame.take 5 = [0x3A, 0x00, 0x02, 0x00, 0x09] ∧
          (frame.drop 5).take (m.length + 2) = UInt8.ofNat m.length :: 0 :: m := by
  have hc : content t = [] := by
    unfold content; rw [ht]; rfl
  have h := run_lines ps t hp hone (by rw [hc]; simp) (by rw [hc]; simp)
  rw [hc] at h
  have hs' : splitLines (ps.flatMap text) [] = (lines, rest) := hs
  rw [hs'] at h
  obtain ⟨calls, es, t', k1, -, -, -, k5⟩ :=
    h (fun l hl => ⟨hlen l hl, ⟨hhead l hl, hlast l hl, hfew l hl⟩, hhelp l hl⟩) hrest
  refine ⟨calls, es, t', k1, ?_, ?_⟩
  · rw [k5]
    dsimp only
    rw [List.map_flatMap]
    refine flatMap_congr' lines _ _ fun l hl => ?_
    have hnz : ∀ w ∈ words l [], ∀ c ∈ w, c ≠ 0 := by
      intro w hw c hcw
      rcases words_mem _ _ w hw c hcw with h' | h'
      · cases h'
      · have hl' : l ∈ (splitLines (ps.flatMap text) []).1 := by rw [hs']; exact hl
        rcases mem_lines _ _ l hl' c h' with h'' | h''
        · cases h''
        · obtain ⟨p, -, hpc⟩ := List.mem_flatMap.1 h''
          exact text_nonzero p c hpc
    obtain ⟨es', e1, e2⟩ := exec_dialogue (words l []) hnz (hhelp l hl)
    unfold effects
    rw [e1]
    dsimp only
    rw [List.map_append, e2]
    rfl
  · intro m hm f buf hb
    have hsh : Short (.print m) := C45_terminal_texts_fit ps t t' ⟨calls, es⟩ k1 _ hm
    exact C45_frame_partial f buf m hb hsh

/-- Two lines in four packets, the second one refused: the shutdown line is set and reported, then the
prompt, then the reason for the refusal and the prompt. -/
example : ∃ calls es t', run [str "setsdc 1", str "\nsetpd", str "m 1 0 2 ", str "1 0 0\nhe"] fresh =
      .ok (⟨calls, es⟩, t') ∧
    es.map item = [.does (.ecuError true), .says (ascii "  SDC output set to: 1\n"), .says (ascii "> "),
      .says (ascii "Param must be 0 or 1\n"), .says (ascii "> ")] := by
  obtain ⟨c, e, t', h1, h2, -⟩ := C162_answers
    [str "setsdc 1", str "\nsetpd", str "m 1 0 2 ", str "1 0 0\nhe"] [str "setsdc 1", str "setpdm 1 0 2 1 0 0"] (str "he")
    fresh rfl (by decide +kernel) (by decide +kernel) (by decide +kernel) (by decide +kernel)
    (by decide +kernel) (by decide +kernel) (by decide +kernel)
    (by
      intro l hl x hx
      exfalso
      simp only [List.mem_cons, List.not_mem_nil, or_false] at hl
      rcases hl with rfl | rfl
      · have : (words (str "setsdc 1") []).head? = some help := by rw [hx]; rfl
        exact absurd this (by decide +kernel)
      · have : (words (str "setpdm 1 0 2 1 0 0") []).head? = some help := by rw [hx]; rfl
        exact absurd this (by decide +kernel))
    (by decide +kernel)
  exact ⟨c, e, t', h1, h2.trans (by decide +kernel)⟩

/-- The help screen. -/
example : dialogue [ascii "help", ascii "setsdc"] =
    [.says (ascii "Control shutdown circuit output state"), .says (ascii "\n"),
     .says (ascii "Usage: setsdc x\nwhere x is 0 or 1 to disable or enable the SDC output.\n")] := by
  decide +kernel

end Verif.Term
