import Verif.Model.Term
import Verif.Spec.Term
import Verif.Proofs.MsgFrame
import Mathlib.Tactic.IntervalCases

set_option autoImplicit false

/-!
# Debug terminal: tokens and commands
-/

namespace Verif.Term
open MsgFrame TermSpec

/-! ## Tokens -/

/-- The argument array holding words. -/
def ofWords (ws : List (List UInt8)) : Args := fun k j => (ws.getD k []).getD j 0

theorem words_pos (l cur : List UInt8) (h : cur ≠ []) : 0 < (words l cur).length := by
  induction l generalizing cur with
  | nil => simp [words, h]
  | cons c cs ih =>
    unfold words
    split_ifs with hb
    · simp
    · exact ih _ (by simp)

theorem ofWords_nil_last (ws : List (List UInt8)) : ofWords (ws ++ [[]]) = ofWords ws := by
  funext k j
  unfold ofWords
  by_cases h : k < ws.length
  · simp [List.getD, List.getElem?_append, h]
  · by_cases h2 : k = ws.length
    · subst h2; simp [List.getD]
    · simp [List.getD, List.getElem?_append, h, show ¬ (k - ws.length = 0) by omega]

theorem ofWords_snoc (D : List (List UInt8)) (cur : List UInt8) (c : UInt8) :
    (fun k j => if k = D.length ∧ j = cur.length then c else ofWords (D ++ [cur]) k j) =
      ofWords (D ++ [cur ++ [c]]) := by
  funext k j
  unfold ofWords
  by_cases h : k < D.length
  · rw [if_neg (by omega)]
    simp [List.getD, List.getElem?_append, h]
  · by_cases h2 : k = D.length
    · subst h2
      simp only [List.getD, List.getElem?_append_right (le_refl _), Nat.sub_self, List.getElem?_cons_zero,
        Option.getD_some, true_and]
      by_cases hj : j < cur.length
      · rw [if_neg (by omega), List.getElem?_append_left hj]
      · by_cases hj2 : j = cur.length
        · subst hj2; simp
        · rw [if_neg hj2, List.getElem?_eq_none (by omega), List.getElem?_eq_none (by simp; omega)]
    · rw [if_neg (by omega)]
      simp [List.getD, List.getElem?_append, h, show ¬ (k - D.length = 0) by omega]

/-- The tokeniser has stored the words `D` and the part `cur` of the next. -/
structure Rel (D : List (List UInt8)) (cur : List UInt8) (t : Tok) : Prop where
  args : t.args = ofWords (D ++ [cur])
  n : t.nArgs = D.length
  idx : t.argIdx = cur.length
  ws : cur ≠ [] → t.ws = false

theorem foldlM_cons_ok {σ α : Type} {f : σ → α → C σ} {s s' : σ} {a : α} {l : List α} (h : f s a = .ok s') :
    (a :: l).foldlM f s = l.foldlM f s' := by
  rw [List.foldlM_cons, h]; rfl

theorem foldlM_append_ok {σ α : Type} {f : σ → α → C σ} {s s' : σ} {a b : List α} (h : a.foldlM f s = .ok s') :
    (a ++ b).foldlM f s = b.foldlM f s' := by
  rw [List.foldlM_append, h]; rfl

theorem step_words (l : List UInt8) (D : List (List UInt8)) (cur : List UInt8) (t : Tok) (hr : Rel D cur t)
    (hnl : 10 ∉ l) (hhead : cur = [] → t.ws = true ∨ ∀ c, l.head? = some c → ¬ Blank c)
    (hnum : D.length + (words l cur).length ≤ 8) (hlen : cur.length + l.length ≤ 64)
    (hlast : ∀ c, l.getLast? = some c → ¬ Blank c) (hne : l = [] → cur ≠ []) :
    ∃ t' D' cur', l.foldlM Tok.step t = .ok t' ∧ Rel D' cur' t' ∧ D' ++ [cur'] = D ++ words l cur := by
  induction l generalizing D cur t with
  | nil =>
    refine ⟨t, D, cur, rfl, hr, ?_⟩
    simp [words, hne rfl]
  | cons c cs ih =>
    have hlast' : ∀ x, cs.getLast? = some x → ¬ Blank x := by
      intro x hx
      apply hlast x
      cases cs with
      | nil => simp at hx
      | cons a as => rw [List.getLast?_cons_cons]; exact hx
    have hcs : Blank c → cs ≠ [] := by
      rintro hb rfl
      exact hlast c (by simp) hb
    have hc10 : c ≠ 10 := fun h => hnl (by simp [h])
    have hnl' : 10 ∉ cs := fun h => hnl (List.mem_cons_of_mem _ h)
    rw [List.length_cons] at hlen
    by_cases hb : Blank c
    · by_cases hcur : cur = []
      · subst hcur
        have hws : t.ws = true := by
          rcases hhead rfl with h | h
          · exact h
          · exact absurd hb (h c rfl)
        have hstep : t.step c = .ok t := by
          unfold Tok.step
          have hb' : c = 0x20 ∨ c = 0x09 := hb
          rw [if_pos hb']
          obtain ⟨a, n, i, w⟩ := t
          simp_all
        rw [foldlM_cons_ok hstep]
        have hw : words (c :: cs) [] = words cs [] := by
          conv_lhs => unfold words
          rw [if_pos hb, if_pos rfl]
        rw [hw] at hnum ⊢
        exact ih D [] t hr hnl' (fun _ => Or.inl hws) hnum (by omega) hlast' (fun h => absurd h (hcs hb))
      · have hws := hr.ws hcur
        have hstep : t.step c = .ok { t with nArgs := t.nArgs + 1, argIdx := 0, ws := true } := by
          unfold Tok.step
          have hb' : c = 0x20 ∨ c = 0x09 := hb
          rw [if_pos hb', hws]
          rfl
        rw [foldlM_cons_ok hstep]
        have hw : words (c :: cs) cur = cur :: words cs [] := by
          conv_lhs => unfold words
          rw [if_pos hb, if_neg hcur]
        rw [hw] at hnum ⊢
        rw [List.length_cons] at hnum
        obtain ⟨t', D', cur', h1, h2, h3⟩ := ih (D ++ [cur]) []
          { t with nArgs := t.nArgs + 1, argIdx := 0, ws := true }
          ⟨by rw [ofWords_nil_last]; exact hr.args, by simp [hr.n], rfl, fun h => absurd rfl h⟩ hnl'
          (fun _ => Or.inl rfl) (by simp; omega) (by simp; omega) hlast' (fun h => absurd h (hcs hb))
        exact ⟨t', D', cur', h1, h2, by rw [h3]; simp⟩
    · have hw : words (c :: cs) cur = words cs (cur ++ [c]) := by
        conv_lhs => unfold words
        rw [if_neg hb]
      rw [hw] at hnum ⊢
      have hpos := words_pos cs (cur ++ [c]) (by simp)
      have hstep : t.step c = .ok { t with
          args := fun k j => if k = t.nArgs ∧ j = t.argIdx then c else t.args k j
          argIdx := t.argIdx + 1
          ws := false } := by
        unfold Tok.step
        have hb' : ¬ (c = 0x20 ∨ c = 0x09) := hb
        rw [if_neg hb', if_neg (show ¬ c = 0x0A from hc10), if_pos]
        exact ⟨by rw [hr.n]; show _ < 8; omega, by rw [hr.idx]; show _ < 65; omega⟩
      rw [foldlM_cons_ok hstep]
      refine ih D (cur ++ [c]) _ ⟨?_, hr.n, ?_, fun _ => rfl⟩ hnl' (fun h => absurd h (by simp)) hnum
        (by simp; omega) hlast' (fun _ => by simp)
      · dsimp only
        rw [hr.n, hr.idx, hr.args, ofWords_snoc]
      · dsimp only
        rw [hr.idx]; simp

/-- A line without leading or trailing blank and with at most 8 words. -/
structure Tidy (l : List UInt8) : Prop where
  head : ∀ c, l.head? = some c → ¬ Blank c
  last : ∀ c, l.getLast? = some c → ¬ Blank c
  few : (words l []).length ≤ 8

theorem tokenise_line {l : List UInt8} (h : Tidy l) (hnl : 10 ∉ l) (hlen : l.length ≤ 64) :
    tokenise (l ++ [10]) = .ok ⟨max 1 (words l []).length, ofWords (words l [])⟩ := by
  by_cases hl : l = []
  · subst hl; rfl
  · have hr0 : Rel [] [] Tok.start := ⟨by funext k j; cases k <;> rfl, rfl, rfl, fun h => absurd rfl h⟩
    obtain ⟨t, D, cur, h1, h2, h3⟩ := step_words l [] [] Tok.start hr0 hnl (fun _ => Or.inr h.head) (by simpa using h.few)
      (by simpa using hlen) h.last (fun h => absurd h hl)
    have hs : t.step 10 = .ok { t with nArgs := t.nArgs + 1, argIdx := 0 } := rfl
    have hf : (l ++ [10]).foldlM Tok.step Tok.start = .ok { t with nArgs := t.nArgs + 1, argIdx := 0 } := by
      rw [foldlM_append_ok h1, foldlM_cons_ok hs]; rfl
    unfold tokenise
    rw [hf]
    rw [List.nil_append] at h3
    dsimp only
    rw [h2.args, h2.n, h3]
    have : D.length + 1 = (words l []).length := by rw [← h3]; simp
    rw [this, show max 1 (words l []).length = (words l []).length by omega]

/-- Blank or newline. -/
def isSep (c : UInt8) : Bool := c = 0x20 ∨ c = 0x09 ∨ c = 0x0A

theorem step_safe (l : List UInt8) (t : Tok) (seen : Nat) (h1 : t.nArgs ≤ seen) (h2 : seen + l.countP isSep ≤ 7)
    (h3 : t.argIdx + l.length ≤ 65) :
    ∃ t', l.foldlM Tok.step t = .ok t' := by
  induction l generalizing t seen with
  | nil => exact ⟨t, rfl⟩
  | cons c cs ih =>
    rw [List.length_cons] at h3
    by_cases hb : c = 0x20 ∨ c = 0x09
    · have hsep : isSep c = true := by unfold isSep; simp; tauto
      rw [List.countP_cons_of_pos hsep] at h2
      have hstep : ∃ t', t.step c = .ok t' ∧ t'.nArgs ≤ seen + 1 ∧ t'.argIdx ≤ t.argIdx := by
        unfold Tok.step
        rw [if_pos hb]
        cases t.ws
        · exact ⟨_, rfl, Nat.succ_le_succ h1, Nat.zero_le _⟩
        · exact ⟨_, rfl, Nat.le_succ_of_le h1, le_refl _⟩
      obtain ⟨t', e1, e2, e3⟩ := hstep
      rw [foldlM_cons_ok e1]
      exact ih t' (seen + 1) e2 (by omega) (by omega)
    · by_cases hn : c = 0x0A
      · have hsep : isSep c = true := by unfold isSep; simp; tauto
        rw [List.countP_cons_of_pos hsep] at h2
        have e1 : t.step c = .ok { t with nArgs := t.nArgs + 1, argIdx := 0 } := by
          unfold Tok.step; rw [if_neg hb, if_pos hn]
        rw [foldlM_cons_ok e1]
        exact ih _ (seen + 1) (by dsimp only; omega) (by omega) (by dsimp only; omega)
      · have hsep : ¬ isSep c = true := by unfold isSep; simp; tauto
        rw [List.countP_cons_of_neg hsep] at h2
        have e1 : t.step c = .ok { t with
            args := fun k j => if k = t.nArgs ∧ j = t.argIdx then c else t.args k j
            argIdx := t.argIdx + 1
            ws := false } := by
          unfold Tok.step
          rw [if_neg hb, if_neg hn, if_pos]
          exact ⟨by show _ < 8; omega, by show _ < 65; omega⟩
        rw [foldlM_cons_ok e1]
        exact ih _ seen h1 h2 (by dsimp only; omega)

theorem tokenise_safe (l : List UInt8) (h : l.countP isSep ≤ 7) (hl : l.length ≤ 63) : ∃ c, tokenise (l ++ [10]) = .ok c := by
  obtain ⟨t, ht⟩ := step_safe l Tok.start 0 (le_refl _) (by omega) (by show 0 + _ ≤ _; omega)
  have hs : t.step 10 = .ok { t with nArgs := t.nArgs + 1, argIdx := 0 } := rfl
  unfold tokenise
  rw [foldlM_append_ok ht, foldlM_cons_ok hs]
  exact ⟨_, rfl⟩

/-! ## Commands -/

theorem strEq_iff (w name : List UInt8) (hw : ∀ c ∈ w, c ≠ 0) (hn : ∀ c ∈ name, c ≠ 0) :
    strEq (fun j => w.getD j 0) name = true ↔ w = name := by
  unfold strEq
  rw [List.all_eq_true]
  constructor
  · intro h
    have hi : ∀ i, i ≤ name.length → w.getD i 0 = name.getD i 0 := by
      intro i hi
      simpa using h i (List.mem_range.mpr (by omega))
    have hwn : ∀ i, i < w.length → w.getD i 0 ≠ 0 := by
      intro i hi
      have e : w.getD i 0 = w[i] := by simp [List.getD, hi]
      rw [e]
      exact hw _ (List.getElem_mem hi)
    have hnn : ∀ i, i < name.length → name.getD i 0 ≠ 0 := by
      intro i hi
      have e : name.getD i 0 = name[i] := by simp [List.getD, hi]
      rw [e]
      exact hn _ (List.getElem_mem hi)
    have h1 : w.length ≤ name.length := by
      by_contra hc
      have := hi name.length (le_refl _)
      exact hwn name.length (by omega) (by rw [this]; simp [List.getD])
    have h2 : name.length ≤ w.length := by
      by_contra hc
      have := hi w.length (by omega)
      exact hnn w.length (by omega) (by rw [← this]; simp [List.getD])
    apply List.ext_getElem (by omega)
    intro i g1 g2
    have := hi i (by omega)
    simpa [List.getD, g1, g2] using this
  · rintro rfl i _
    simp

/-- The actions on the vehicle among effects. -/
def vehicle (es : List Eff) : List Act :=
  es.filterMap fun e =>
    match e with
    | .print _ => none
    | .ecuError b => some (.ecuError b)
    | .power i b => some (.power i b)

theorem vehicle_append (a b : List Eff) : vehicle (a ++ b) = vehicle a ++ vehicle b := List.filterMap_append

theorem mapM_option {α : Type} (f : α → Option Bool) (l : List α) :
    l.mapM f = if ∀ x ∈ l, (f x).isSome then some (l.map fun x => (f x).getD false) else none := by
  induction l with
  | nil => simp
  | cons a l ih =>
    rw [List.mapM_cons, ih]
    cases ha : f a with
    | none => simp [ha]
    | some v =>
      by_cases h : ∀ x ∈ l, (f x).isSome
      · rw [if_pos h, if_pos]
        · simp [ha]
        · intro x hx
          rcases List.mem_cons.mp hx with rfl | hx
          · rw [ha]; rfl
          · exact h x hx
      · rw [if_neg h, if_neg]
        · rfl
        · intro hc
          exact h fun x hx => hc x (List.mem_cons_of_mem _ hx)

theorem vehicle_setpdm (c : Call) :
    vehicle (cmdSetpdm c) =
      if c.argc = 7 ∧ ∀ i ∈ List.range 6, (param (c.argv (i + 1) 0)).isSome then
        (List.range 6).map fun i => Act.power i ((param (c.argv (i + 1) 0)).getD false)
      else [] := by
  unfold cmdSetpdm
  by_cases h7 : c.argc = 7
  · rw [if_neg (by simp [h7]), mapM_option]
    by_cases h : ∀ i ∈ List.range 6, (param (c.argv (i + 1) 0)).isSome
    · rw [if_pos h, if_pos ⟨h7, h⟩]
      rfl
    · rw [if_neg h, if_neg (fun hc => h hc.2)]
      rfl
  · rw [if_pos h7, if_neg (fun hc => h7 hc.1)]
    rfl

theorem vehicle_setsdc (c : Call) :
    vehicle (cmdSetsdc c) =
      if c.argc = 2 ∧ (param (c.argv 1 0)).isSome then [.ecuError ((param (c.argv 1 0)).getD false)] else [] := by
  unfold cmdSetsdc
  by_cases h2 : c.argc = 2
  · rw [if_neg (by simp [h2])]
    cases hp : param (c.argv 1 0) with
    | none => simp [vehicle]
    | some b => simp [vehicle, h2]
  · rw [if_pos h2, if_neg (fun hc => h2 hc.1)]
    rfl

theorem vehicle_helpAll : vehicle helpAll = [] := by
  unfold helpAll vehicle
  simp [List.filterMap_map]

theorem vehicle_help {c : Call} {es : List Eff} (h : cmdHelp c = .ok es) : vehicle es = [] := by
  unfold cmdHelp at h
  split_ifs at h
  · injection h with h; rw [← h]; exact vehicle_helpAll
  · split at h
    · simp at h
    · injection h with h; rw [← h]; rfl
  · injection h with h
    rw [← h]
    show vehicle helpAll = []
    exact vehicle_helpAll

theorem param_bit (w : List UInt8) : param (w.getD 0 0) = bit w := by
  cases w with
  | nil => rfl
  | cons c w =>
    show param c = bit (c :: w)
    unfold param bit
    by_cases h0 : c = 48
    · subst h0; rfl
    · by_cases h1 : c = 49
      · subst h1; rfl
      · rw [if_neg h0, if_neg h1]
        split
        · rename_i heq; injection heq with h _; exact absurd h h0
        · rename_i heq; injection heq with h _; exact absurd h h1
        · rfl

theorem names_eq : str "help" = help ∧ str "setpdm" = setpdm ∧ str "setsdc" = setsdc := by decide +kernel

/-- Which command runs. -/
theorem processCommand_words (argc : Nat) (w : List UInt8) (ws : List (List UInt8)) (hw : ∀ c ∈ w, c ≠ 0) :
    processCommand ⟨argc, ofWords (w :: ws)⟩ commands =
      if w = help then cmdHelp ⟨argc, ofWords (w :: ws)⟩
      else if w = setpdm then .ok (cmdSetpdm ⟨argc, ofWords (w :: ws)⟩)
      else if w = setsdc then .ok (cmdSetsdc ⟨argc, ofWords (w :: ws)⟩)
      else .ok [] := by
  obtain ⟨n1, n2, n3⟩ := names_eq
  have hrow : ∀ name : List UInt8, (∀ c ∈ name, c ≠ 0) →
      (strEq (ofWords (w :: ws) 0) name = true ↔ w = name) := fun name hn => strEq_iff w name hw hn
  have r1 := hrow help (by decide)
  have r2 := hrow setpdm (by decide)
  have r3 := hrow setsdc (by decide)
  unfold commands
  rw [n1, n2, n3]
  simp only [processCommand]
  have d12 : help ≠ setpdm := by decide
  have d13 : help ≠ setsdc := by decide
  have d23 : setpdm ≠ setsdc := by decide
  by_cases h1 : w = help
  · have e2 : ¬ strEq (ofWords (w :: ws) 0) setpdm = true := fun h => d12 (h1.symm.trans (r2.mp h))
    have e3 : ¬ strEq (ofWords (w :: ws) 0) setsdc = true := fun h => d13 (h1.symm.trans (r3.mp h))
    rw [if_pos (r1.mpr h1), if_neg e2, if_neg e3, if_pos h1]
    simp only [run1]
    cases cmdHelp ⟨argc, ofWords (w :: ws)⟩ with
    | error e => rfl
    | ok es => simp
  · rw [if_neg (fun h => h1 (r1.mp h)), if_neg h1]
    by_cases h2 : w = setpdm
    · have e3 : ¬ strEq (ofWords (w :: ws) 0) setsdc = true := fun h => d23 (h2.symm.trans (r3.mp h))
      rw [if_pos (r2.mpr h2), if_neg e3, if_pos h2]
      simp [run1]
    · rw [if_neg (fun h => h2 (r2.mp h)), if_neg h2]
      by_cases h3 : w = setsdc
      · rw [if_pos (r3.mpr h3), if_pos h3]
        simp [run1]
      · rw [if_neg (fun h => h3 (r3.mp h)), if_neg h3]

/-- The three names. -/
def Known (x : List UInt8) : Prop := x = help ∨ x = setpdm ∨ x = setsdc

theorem find_known (x : List UInt8) (hx : ∀ c ∈ x, c ≠ 0) :
    (commands.find? (fun d => strEq (fun j => x.getD j 0) d.name)).isSome = true ↔ Known x := by
  obtain ⟨n1, n2, n3⟩ := names_eq
  unfold commands
  rw [List.find?_isSome, n1, n2, n3]
  unfold Known
  simp only [List.mem_cons, List.not_mem_nil, or_false]
  constructor
  · rintro ⟨d, rfl | rfl | rfl, h⟩
    · exact Or.inl ((strEq_iff _ _ hx (by decide)).mp h)
    · exact Or.inr (Or.inl ((strEq_iff _ _ hx (by decide)).mp h))
    · exact Or.inr (Or.inr ((strEq_iff _ _ hx (by decide)).mp h))
  · rintro (h | h | h)
    · exact ⟨_, Or.inl rfl, (strEq_iff _ _ hx (by decide)).mpr h⟩
    · exact ⟨_, Or.inr (Or.inl rfl), (strEq_iff _ _ hx (by decide)).mpr h⟩
    · exact ⟨_, Or.inr (Or.inr rfl), (strEq_iff _ _ hx (by decide)).mpr h⟩

theorem help_unknown (x : List UInt8) (hx : ∀ c ∈ x, c ≠ 0) (hk : ¬ Known x) :
    processCommand ⟨2, ofWords [help, x]⟩ commands = .error .nullDeref := by
  rw [processCommand_words 2 help [x] (by decide), if_pos rfl]
  unfold cmdHelp
  rw [if_neg (show ¬ (2 = 1) by decide), if_pos rfl]
  have : commands.find? (fun d => strEq ((ofWords [help, x]) 1) d.name) = none := by
    have h := mt (find_known x hx).mp hk
    rw [Option.not_isSome_iff_eq_none] at h
    exact h
  dsimp only
  rw [this]

theorem acts_cons (n : List UInt8) (as : List (List UInt8)) :
    acts (n :: as) =
      if n = setsdc then
        match as with
        | [a] => ((bit a).map Act.ecuError).toList
        | _ => []
      else if n = setpdm then
        if as.length = 6 ∧ ∀ a ∈ as, (bit a).isSome then as.mapIdx fun i a => .power i ((bit a).getD false)
        else []
      else [] := rfl

/-- A line is executed as its words say. -/
theorem exec_words (ws : List (List UInt8)) (hw : ∀ w ∈ ws, ∀ c ∈ w, c ≠ 0)
    (hk : ∀ x, ws = [help, x] → Known x) :
    ∃ es, processCommand ⟨max 1 ws.length, ofWords ws⟩ commands = .ok es ∧ vehicle es = acts ws := by
  cases ws with
  | nil =>
    have h := processCommand_words 1 [] [] (by simp)
    have e : ofWords [] = ofWords [[]] := (ofWords_nil_last []).symm
    refine ⟨[], ?_, rfl⟩
    show processCommand ⟨1, ofWords []⟩ commands = _
    rw [e, h]
    rfl
  | cons w ws =>
    rw [show max 1 (w :: ws).length = ws.length + 1 by simp]
    rw [processCommand_words _ w ws (hw w (by simp))]
    have d12 : help ≠ setpdm := by decide
    have d13 : help ≠ setsdc := by decide
    have d23 : setpdm ≠ setsdc := by decide
    by_cases h1 : w = help
    · subst h1
      rw [if_pos rfl]
      have ha : acts (help :: ws) = [] := by
        rw [acts_cons, if_neg d13, if_neg d12]
      have hok : ∃ es, cmdHelp ⟨ws.length + 1, ofWords (help :: ws)⟩ = .ok es := by
        unfold cmdHelp
        dsimp only
        split_ifs with g1 g2
        · exact ⟨_, rfl⟩
        · obtain ⟨x, rfl⟩ : ∃ x, ws = [x] := List.length_eq_one_iff.mp (by omega)
          have hs := (find_known x (hw x (by simp))).mpr (hk x rfl)
          obtain ⟨d, hd⟩ := Option.isSome_iff_exists.mp hs
          have hd' : commands.find? (fun d => strEq ((ofWords [help, x]) 1) d.name) = some d := hd
          rw [hd']
          exact ⟨_, rfl⟩
        · exact ⟨_, rfl⟩
      obtain ⟨es, hes⟩ := hok
      exact ⟨es, hes, by rw [ha]; exact vehicle_help hes⟩
    · rw [if_neg h1]
      by_cases h2 : w = setpdm
      · subst h2
        rw [if_pos rfl]
        refine ⟨_, rfl, ?_⟩
        rw [vehicle_setpdm]
        rw [acts_cons, if_neg d23, if_pos rfl]
        dsimp only
        by_cases h6 : ws.length = 6
        · obtain ⟨a0, a1, a2, a3, a4, a5, rfl⟩ : ∃ a0 a1 a2 a3 a4 a5, ws = [a0, a1, a2, a3, a4, a5] := by
            match ws, h6 with
            | [a, b, c, d, e, f], _ => exact ⟨a, b, c, d, e, f, rfl⟩
          have hpar : ∀ i < 6, param (ofWords (setpdm :: [a0, a1, a2, a3, a4, a5]) (i + 1) 0) =
              bit ([a0, a1, a2, a3, a4, a5].getD i []) := by
            intro i _
            rw [← param_bit]; rfl
          have hall : (∀ i ∈ List.range 6, (param (ofWords (setpdm :: [a0, a1, a2, a3, a4, a5]) (i + 1) 0)).isSome) ↔
              ∀ a ∈ [a0, a1, a2, a3, a4, a5], (bit a).isSome := by
            constructor
            · intro h a ha
              simp only [List.mem_cons, List.not_mem_nil, or_false] at ha
              have h0 := h 0 (by decide); have h1 := h 1 (by decide); have h2 := h 2 (by decide)
              have h3 := h 3 (by decide); have h4 := h 4 (by decide); have h5 := h 5 (by decide)
              rw [hpar _ (by omega)] at h0 h1 h2 h3 h4 h5
              rcases ha with rfl | rfl | rfl | rfl | rfl | rfl <;> assumption
            · intro h i hi
              have hi := List.mem_range.mp hi
              rw [hpar i hi]
              apply h
              interval_cases i <;> simp
          by_cases hb : ∀ a ∈ [a0, a1, a2, a3, a4, a5], (bit a).isSome
          · rw [if_pos ⟨by simp, hall.mpr hb⟩, if_pos ⟨rfl, hb⟩]
            have : (List.range 6).map (fun i => Act.power i
                ((param (ofWords (setpdm :: [a0, a1, a2, a3, a4, a5]) (i + 1) 0)).getD false)) =
                (List.range 6).map (fun i => Act.power i ((bit ([a0, a1, a2, a3, a4, a5].getD i [])).getD false)) := by
              apply List.map_congr_left
              intro i hi
              rw [hpar i (List.mem_range.mp hi)]
            rw [this]
            rfl
          · rw [if_neg (fun h => hb (hall.mp h.2)), if_neg (fun h => hb h.2)]
        · rw [if_neg (fun h => h6 (by omega)), if_neg (fun h => h6 h.1)]
      · rw [if_neg h2]
        by_cases h3 : w = setsdc
        · subst h3
          rw [if_pos rfl]
          refine ⟨_, rfl, ?_⟩
          rw [vehicle_setsdc]
          rw [acts_cons, if_pos rfl]
          match ws with
          | [] => rfl
          | [a] =>
            have hp : param (ofWords [setsdc, a] 1 0) = bit a := by rw [← param_bit]; rfl
            dsimp only
            rw [hp]
            cases bit a <;> rfl
          | _ :: _ :: _ => rw [if_neg (by simp)]
        · rw [if_neg h3]
          refine ⟨[], rfl, ?_⟩
          rw [acts_cons, if_neg h3, if_neg h2]
          rfl

/-! ## Lines -/

theorem words_mem (l cur : List UInt8) : ∀ w ∈ words l cur, ∀ c ∈ w, c ∈ cur ∨ c ∈ l := by
  induction l generalizing cur with
  | nil =>
    intro w hw c hc
    unfold words at hw
    split_ifs at hw
    · simp at hw
    · rw [List.mem_singleton] at hw; subst hw; exact Or.inl hc
  | cons a l ih =>
    intro w hw c hc
    unfold words at hw
    split_ifs at hw with h1 h2
    · rcases ih [] w hw c hc with h | h
      · simp at h
      · exact Or.inr (List.mem_cons_of_mem _ h)
    · rcases List.mem_cons.mp hw with rfl | hw
      · exact Or.inl hc
      · rcases ih [] w hw c hc with h | h
        · simp at h
        · exact Or.inr (List.mem_cons_of_mem _ h)
    · rcases ih (cur ++ [a]) w hw c hc with h | h
      · simp only [List.mem_append, List.mem_singleton] at h
        rcases h with h | rfl
        · exact Or.inl h
        · exact Or.inr (by simp)
      · exact Or.inr (List.mem_cons_of_mem _ h)

theorem split_nl (b cur : List UInt8) :
    splitLines (10 :: b) cur = (cur :: (splitLines b []).1, (splitLines b []).2) := rfl

theorem split_char {c : UInt8} (b cur : List UInt8) (h : c ≠ 10) :
    splitLines (c :: b) cur = splitLines b (cur ++ [c]) := by
  conv_lhs => unfold splitLines
  rw [if_neg h]

theorem split_append (a b cur : List UInt8) :
    splitLines (a ++ b) cur =
      ((splitLines a cur).1 ++ (splitLines b (splitLines a cur).2).1, (splitLines b (splitLines a cur).2).2) := by
  induction a generalizing cur with
  | nil => rfl
  | cons c a ih =>
    rw [List.cons_append]
    by_cases h : c = 10
    · subst h; rw [split_nl, split_nl, ih]; rfl
    · rw [split_char _ _ h, split_char _ _ h, ih]

theorem split_none (a cur : List UInt8) (h : 10 ∉ a) : splitLines a cur = ([], cur ++ a) := by
  induction a generalizing cur with
  | nil => simp [splitLines]
  | cons c a ih =>
    unfold splitLines
    rw [if_neg (fun hc => h (by simp [hc])), ih _ (fun hc => h (List.mem_cons_of_mem _ hc))]
    simp

theorem split_one (a b cur : List UInt8) (ha : 10 ∉ a) (hb : 10 ∉ b) :
    splitLines (a ++ 10 :: b) cur = ([cur ++ a], b) := by
  rw [split_append, split_none a cur ha]
  rw [split_nl, split_none b [] hb]
  rfl

/-- The pending text is part of the next line or of the rest. -/
theorem split_pending (b cur : List UInt8) (n : Nat) (h1 : ∀ l ∈ (splitLines b cur).1, l.length ≤ n)
    (h2 : (splitLines b cur).2.length ≤ n) : cur.length ≤ n := by
  induction b generalizing cur with
  | nil => exact h2
  | cons c b ih =>
    unfold splitLines at h1 h2
    split_ifs at h1 h2 with h
    · exact h1 cur (by simp)
    · have := ih (cur ++ [c]) h1 h2
      simp at this
      omega

theorem one_newline (l : List UInt8) (h : l.count 10 ≤ 1) : 10 ∉ l ∨ ∃ a b, l = a ++ 10 :: b ∧ 10 ∉ a ∧ 10 ∉ b := by
  by_cases hm : 10 ∈ l
  · obtain ⟨a, b, rfl⟩ := List.append_of_mem hm
    refine Or.inr ⟨a, b, rfl, ?_, ?_⟩
    · intro hc
      have := List.count_pos_iff.mpr hc
      simp at h; omega
    · intro hc
      have := List.count_pos_iff.mpr hc
      simp at h; omega
  · exact Or.inl hm

theorem proc_plain (l : List UInt8) (p : Proc) (hnl : 10 ∉ l) (hlen : p.cmdBuf.length + l.length ≤ 64) :
    l.foldlM Proc.step p = .ok { p with cmdBuf := p.cmdBuf ++ l, i := p.i + l.length } := by
  induction l generalizing p with
  | nil => simp; rfl
  | cons c l ih =>
    rw [List.length_cons] at hlen
    have hs : p.step c = .ok { p with cmdBuf := p.cmdBuf ++ [c], i := p.i + 1 } := by
      unfold Proc.step
      rw [if_neg (by show ¬ 64 ≤ _; omega)]
      dsimp only
      rw [if_neg (fun h => hnl (by simp [h]))]
    rw [foldlM_cons_ok hs, ih _ (fun h => hnl (List.mem_cons_of_mem _ h)) (by dsimp only; simp; omega)]
    simp
    omega

/-- The text of a packet: up to the first NUL. -/
def text (p : List UInt8) : List UInt8 := p.takeWhile (· ≠ 0)

theorem text_nonzero (p : List UInt8) : ∀ c ∈ text p, c ≠ 0 := by
  intro c hc
  have := List.all_takeWhile (p := fun x : UInt8 => decide (x ≠ 0)) (l := p)
  rw [List.all_eq_true] at this
  simpa using this c hc

theorem text_length (p : List UInt8) : (text p).length ≤ p.length := (List.takeWhile_prefix _).length_le

/-- A line the terminal handles: short, tidy, and no help on an unknown command. -/
structure Good (l : List UInt8) : Prop where
  short : l.length ≤ 56
  tidy : Tidy l
  known : ∀ x, words l [] = [help, x] → Known x

/-- A call passes the words of a line. -/
def Passes (l : List UInt8) (c : Call) : Prop :=
  c.argc = max 1 (words l []).length ∧ ∀ k j, c.argv k j = ((words l []).getD k []).getD j 0

/-- The buffered text. -/
def content (t : Term) : List UInt8 := slice t.buf 0 t.next

theorem content_length (t : Term) : (content t).length = t.next := slice_length _ _ _

theorem shift_content (d : Nat → UInt8) (a b : List UInt8) (n : Nat) (hn : n = a.length + b.length)
    (h : slice d 0 n = a ++ b) :
    slice ((List.range (n - a.length)).foldl (fun d i => fun j => if j = i then d (i + a.length) else d j) d) 0
      (n - a.length) = b := by
  rw [compact_loop]
  have h2 : slice d (0 + a.length) (n - a.length) = b := by
    rw [← slice_drop _ _ _ _ (by omega), h, List.drop_left]
  refine Eq.trans (slice_ext ?_) h2
  intro j hj
  rw [if_pos (by omega)]
  congr 1
  omega

theorem shift_zero (d : Nat → UInt8) (n : Nat) :
    (List.range n).foldl (fun d i => fun j => if j = i then d (i + 0) else d j) d = d := by
  rw [compact_loop]
  funext j
  split_ifs <;> rfl

/-- Processing a buffered text with no newline. -/
theorem process_none (t : Term) (hn : t.next ≤ 64) (h : 10 ∉ content t) :
    processBuffer t = .ok (⟨[], []⟩, t) := by
  unfold processBuffer
  have hf := proc_plain (content t) ⟨[], 0, false, 0, ⟨[], []⟩⟩ h (by simp [content_length, hn])
  unfold content at hf
  rw [hf]
  dsimp only
  rw [Nat.sub_zero, shift_zero]
  rfl

/-- Processing a buffered text with one newline. -/
theorem process_one (t : Term) (hn : t.next ≤ 64) (a b : List UInt8) (h : content t = a ++ 10 :: b) (ha : 10 ∉ a)
    (hb : 10 ∉ b) (call : Call) (es : List Eff) (h1 : tokenise (a ++ [10]) = .ok call)
    (h2 : processCommand call commands = .ok es) :
    ∃ t', processBuffer t = .ok (⟨[call], es ++ [.print (str "> ")]⟩, t') ∧ content t' = b := by
  have hlen := content_length t
  rw [h] at hlen
  simp at hlen
  have f1 := proc_plain a ⟨[], 0, false, 0, ⟨[], []⟩⟩ ha (by simp; omega)
  have f2 : Proc.step ⟨a, 0, false, a.length, ⟨[], []⟩⟩ 10 =
      .ok ⟨a ++ [10], a.length + 1, true, a.length + 1, ⟨[call], es⟩⟩ := by
    unfold Proc.step
    rw [if_neg (by show ¬ 64 ≤ a.length; omega)]
    dsimp only
    rw [if_pos rfl, h1]
    dsimp only
    rw [h2]
    rfl
  have f3 := proc_plain b ⟨a ++ [10], a.length + 1, true, a.length + 1, ⟨[call], es⟩⟩ hb (by simp; omega)
  have f : (content t).foldlM Proc.step ⟨[], 0, false, 0, ⟨[], []⟩⟩ =
      .ok ⟨a ++ [10] ++ b, a.length + 1, true, a.length + 1 + b.length, ⟨[call], es⟩⟩ := by
    rw [h, foldlM_append_ok f1]
    simp only [List.nil_append, Nat.zero_add]
    rw [foldlM_cons_ok f2, f3]
  unfold content at f
  unfold processBuffer
  rw [f]
  refine ⟨_, rfl, ?_⟩
  have := shift_content t.buf (a ++ [10]) b t.next (by simp; omega) (by
    have h' : slice t.buf 0 t.next = a ++ 10 :: b := h
    rw [h']; simp)
  simpa [content] using this

theorem store_content (t : Term) (l : List UInt8) :
    content ⟨store t.buf t.next l, t.next + l.length⟩ = content t ++ l := by
  unfold content
  dsimp only
  rw [slice_add, slice_store_before _ (by omega), Nat.zero_add, slice_store]

/-- What the terminal does for a line. -/
def effects (l : List UInt8) : List Eff :=
  match processCommand ⟨max 1 (words l []).length, ofWords (words l [])⟩ commands with
  | .ok es => es
  | .error _ => []

/-- One packet. -/
theorem recv_lines (t : Term) (p : List UInt8) (hp : p.length ≤ 8) (hone : (text p).count 10 ≤ 1)
    (hpend : (content t).length ≤ 56) (hnl : 10 ∉ content t) (hnz : ∀ c ∈ content t, c ≠ 0)
    (hg : ∀ l ∈ (splitLines (text p) (content t)).1, Good l) :
    ∃ calls es t', recv t p = .ok (⟨calls, es⟩, t') ∧
      List.Forall₂ Passes (splitLines (text p) (content t)).1 calls ∧
      vehicle es = (splitLines (text p) (content t)).1.flatMap (fun l => acts (words l [])) ∧
      content t' = (splitLines (text p) (content t)).2 ∧ 10 ∉ content t' ∧ (∀ c ∈ content t', c ≠ 0) ∧
      es = (splitLines (text p) (content t)).1.flatMap (fun l => effects l ++ [.print (str "> ")]) := by
  have hcl := content_length t
  have htl := text_length p
  have hz := text_nonzero p
  have hst := store_content t (text p)
  have hrecv : recv t p = if t.next + (text p).length = 0 then
      .ok (⟨[], []⟩, ⟨store t.buf t.next (text p), t.next + (text p).length⟩)
      else processBuffer ⟨store t.buf t.next (text p), t.next + (text p).length⟩ := by
    unfold recv
    rw [if_neg (by show ¬ 64 < _; omega)]
    rfl
  rw [hrecv]
  have hnx : ((⟨store t.buf t.next (text p), t.next + (text p).length⟩ : Term)).next ≤ 64 := by dsimp only; omega
  have hzz : ∀ c ∈ content t ++ text p, c ≠ 0 := by
    intro c hc
    rcases List.mem_append.mp hc with h | h
    · exact hnz c h
    · exact hz c h
  rcases one_newline _ hone with h | ⟨a, b, hab, ha, hb⟩
  · rw [split_none _ _ h]
    have hno : 10 ∉ content t ++ text p := by
      intro hc
      rcases List.mem_append.mp hc with h' | h'
      · exact hnl h'
      · exact h h'
    refine ⟨[], [], _, ?_, List.Forall₂.nil, rfl, hst, by rw [hst]; exact hno, by rw [hst]; exact hzz, rfl⟩
    split_ifs
    · rfl
    · exact process_none _ hnx (by rw [hst]; exact hno)
  · rw [hab, split_one _ _ _ ha hb] at hg ⊢
    have hG := hg (content t ++ a) (by simp)
    have hna : 10 ∉ content t ++ a := by
      intro hc
      rcases List.mem_append.mp hc with h' | h'
      · exact hnl h'
      · exact ha h'
    have htok := tokenise_line hG.tidy hna (by have := hG.short; omega)
    have hword : ∀ w ∈ words (content t ++ a) [], ∀ c ∈ w, c ≠ 0 := by
      intro w hw c hc
      rcases words_mem _ _ w hw c hc with h | h
      · simp at h
      · apply hzz c
        rw [hab, ← List.append_assoc]
        exact List.mem_append_left _ h
    obtain ⟨es, he1, he2⟩ := exec_words _ hword hG.known
    have hct : content ⟨store t.buf t.next (text p), t.next + (text p).length⟩ = (content t ++ a) ++ 10 :: b := by
      rw [hst, hab]; simp
    obtain ⟨t', hp1, hp2⟩ := process_one _ hnx (content t ++ a) b hct hna hb _ _ htok he1
    rw [hab] at hp1
    refine ⟨[⟨_, ofWords (words (content t ++ a) [])⟩], es ++ [.print (str "> ")], t', ?_, List.Forall₂.cons ⟨rfl, fun _ _ => rfl⟩ List.Forall₂.nil, ?_, hp2, by rw [hp2]; exact hb, ?_, ?_⟩
    · rw [if_neg (by simp)]; exact hp1
    · rw [vehicle_append, he2]
      simp [vehicle]
    · rw [hp2]
      intro c hc
      apply hzz c
      rw [hab]
      simp [hc]
    · simp [effects, he1]

theorem forall₂_append {α β : Type} {R : α → β → Prop} {a c : List α} {b d : List β} (h1 : List.Forall₂ R a b)
    (h2 : List.Forall₂ R c d) : List.Forall₂ R (a ++ c) (b ++ d) := by
  induction h1 with
  | nil => exact h2
  | cons h _ ih => exact List.Forall₂.cons h ih

theorem run_lines (ps : List (List UInt8)) (t : Term) (hp : ∀ p ∈ ps, p.length ≤ 8)
    (hone : ∀ p ∈ ps, (text p).count 10 ≤ 1) (hnl : 10 ∉ content t) (hnz : ∀ c ∈ content t, c ≠ 0)
    (hg : ∀ l ∈ (splitLines (ps.flatMap text) (content t)).1, Good l)
    (hr : (splitLines (ps.flatMap text) (content t)).2.length ≤ 56) :
    ∃ calls es t', run ps t = .ok (⟨calls, es⟩, t') ∧
      List.Forall₂ Passes (splitLines (ps.flatMap text) (content t)).1 calls ∧
      vehicle es = (splitLines (ps.flatMap text) (content t)).1.flatMap (fun l => acts (words l [])) ∧
      content t' = (splitLines (ps.flatMap text) (content t)).2 ∧
      es = (splitLines (ps.flatMap text) (content t)).1.flatMap (fun l => effects l ++ [.print (str "> ")]) := by
  induction ps generalizing t with
  | nil => exact ⟨[], [], t, rfl, List.Forall₂.nil, rfl, rfl, rfl⟩
  | cons p ps ih =>
    have hpend : (content t).length ≤ 56 := split_pending _ _ 56 (fun l hl => (hg l hl).short) hr
    rw [List.flatMap_cons, split_append] at hg hr ⊢
    dsimp only at hg hr ⊢
    obtain ⟨c1, e1, t1, h1, h2, h3, h4, h5, h6, h7⟩ := recv_lines t p (hp p (by simp)) (hone p (by simp)) hpend hnl hnz
      (fun l hl => hg l (List.mem_append_left _ hl))
    rw [← h4] at hg hr ⊢
    obtain ⟨c2, e2, t2, g1, g2, g3, g4, g5⟩ := ih t1 (fun q hq => hp q (List.mem_cons_of_mem _ hq))
      (fun q hq => hone q (List.mem_cons_of_mem _ hq)) h5 h6 (fun l hl => hg l (List.mem_append_right _ hl)) hr
    refine ⟨c1 ++ c2, e1 ++ e2, t2, ?_, forall₂_append h2 g2, ?_, g4, by rw [h7, g5, List.flatMap_append]⟩
    · unfold run
      rw [h1]
      dsimp only
      rw [g1]
    · rw [vehicle_append, h3, g3, List.flatMap_append]

end Verif.Term
