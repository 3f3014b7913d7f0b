import Verif.Model.StreamBuffer
import Mathlib.Tactic.ByContra
import Mathlib.Tactic.SplitIfs

set_option autoImplicit false

/-!
# C98: stream buffers are byte queues
-/

namespace Verif.StreamBuf

/-- Sends do not overlap: a send begins only when no other sender is inside one. -/
def Excl : Sb → List Ev → Prop
  | _, [] => True
  | s, e :: es =>
    (match e with
      | .send t _ => ∀ u, u ≠ t → s.w u = .idle
      | _ => True) ∧ ∀ s', step s e = .ok s' → Excl s' es

/-! ## Positions -/

theorem mod_add {len : Nat} (P i : Nat) (hi : i < len) :
    (P + i) % len = if P % len + i < len then P % len + i else P % len + i - len := by
  have hp : P % len < len := Nat.mod_lt _ (by omega)
  rw [Nat.add_mod, Nat.mod_eq_of_lt hi]
  split_ifs with h
  · exact Nat.mod_eq_of_lt h
  · rw [Nat.mod_eq_sub_mod (by omega), Nat.mod_eq_of_lt (by omega)]

theorem mod_ne {len a b : Nat} (h1 : a < b) (h2 : b < a + len) : a % len ≠ b % len := by
  obtain ⟨k, rfl⟩ : ∃ k, b = a + k := ⟨b - a, by omega⟩
  have hp : a % len < len := Nat.mod_lt _ (by omega)
  rw [mod_add a k (by omega)]
  split_ifs <;> omega

theorem slot_eq {len : Nat} (P n i : Nat) (hi : i < n) (hn : n ≤ len) : slot len (P % len) n i = (P + i) % len := by
  have hp : P % len < len := Nat.mod_lt _ (by omega)
  rw [mod_add P i (by omega)]
  unfold slot
  dsimp only
  split_ifs <;> omega

theorem advance_eq {len : Nat} (P n : Nat) (hn : n < len) : advance len (P % len) n = (P + n) % len := by
  have hp : P % len < len := Nat.mod_lt _ (by omega)
  rw [mod_add P n hn]
  unfold advance
  split_ifs <;> omega

/-! ## Invariant -/

/-- Byte number `j` of everything sent is stored at `j` modulo the size until it is
received. -/
structure Inv (s : Sb) : Prop where
  pos : 0 < s.len
  head : s.head = s.sent.length % s.len
  tail : s.tail = s.got.length % s.len
  le : s.got.length ≤ s.sent.length
  cap : s.sent.length + 1 ≤ s.got.length + s.len
  pre : s.got = s.sent.take s.got.length
  mem : ∀ j, s.got.length ≤ j → j < s.sent.length → s.sent[j]? = some (s.mem (j % s.len))
  one : ∀ t u, s.w t ≠ .idle → s.w u ≠ .idle → t = u
  wr : ∀ t d n i h, s.w t = .copy d n i h → h = s.head ∧ 0 < n ∧ n ≤ d.length ∧ i ≤ n ∧
    s.sent.length + n + 1 ≤ s.got.length + s.len ∧
    ∀ j, j < i → d[j]? = some (s.mem ((s.sent.length + j) % s.len))
  rd : ∀ n t g, s.r = .copy n t g → t = s.tail ∧ s.got.length + n ≤ s.sent.length ∧ g.length ≤ n ∧
    g = (s.sent.drop s.got.length).take g.length

theorem Inv.bytes_eq {s : Sb} (h : Inv s) : bytes s = s.sent.length - s.got.length := by
  have h1 := h.cap
  have h2 := h.le
  have h3 := h.pos
  have ht : s.got.length % s.len < s.len := Nat.mod_lt _ h3
  unfold bytes
  dsimp only
  rw [h.tail, h.head]
  obtain ⟨k, hk⟩ : ∃ k, s.sent.length = s.got.length + k := ⟨s.sent.length - s.got.length, by omega⟩
  rw [hk, mod_add _ k (by omega)]
  split_ifs <;> omega

theorem Inv.spaces_eq {s : Sb} (h : Inv s) : spaces s = s.len - 1 - (s.sent.length - s.got.length) := by
  have h1 := h.cap
  have h2 := h.le
  have h3 := h.pos
  have ht : s.got.length % s.len < s.len := Nat.mod_lt _ h3
  unfold spaces
  dsimp only
  rw [h.tail, h.head]
  obtain ⟨k, hk⟩ : ∃ k, s.sent.length = s.got.length + k := ⟨s.sent.length - s.got.length, by omega⟩
  rw [hk, mod_add _ k (by omega)]
  split_ifs <;> omega

theorem create_inv (len : Nat) (mem : Nat → UInt8) (h : 0 < len) : Inv (create len mem) :=
  ⟨h, by simp [create], by simp [create], by simp [create], by simp only [create, List.length_nil]; omega, by simp [create],
    by simp [create], by simp [create], by simp [create], by simp [create]⟩

theorem step_inv {s s' : Sb} (h : Inv s) (e : Ev)
    (hx : ∀ t d, e = .send t d → ∀ u, u ≠ t → s.w u = .idle) (hs : step s e = .ok s') : Inv s' := by
  have hsp := h.spaces_eq
  have hby := h.bytes_eq
  have hcap := h.cap
  have hle := h.le
  have hpos := h.pos
  cases e with
  | send t d =>
    simp only [step] at hs
    split at hs
    · injection hs with hs; subst hs; exact h
    · split_ifs at hs with h1 h2
      · injection hs with hs; subst hs; exact h
      · injection hs with hs
        subst hs
        refine ⟨h.pos, h.head, h.tail, h.le, h.cap, h.pre, h.mem, ?_, ?_, h.rd⟩
        · have key : ∀ u, (if u = t then WPc.copy d (min d.length (spaces s)) 0 s.head else s.w u) ≠ .idle → u = t := by
            intro u hu
            by_contra hc
            rw [if_neg hc] at hu
            exact hu (hx t d rfl u hc)
          intro a b ha hb
          rw [key a ha, key b hb]
        · intro u d' n i hd hu
          dsimp only at hu
          by_cases hc : u = t
          · rw [if_pos hc] at hu
            injection hu with e1 e2 e3 e4
            subst e1 e2 e3 e4
            refine ⟨rfl, by omega, Nat.min_le_left _ _, Nat.zero_le _, ?_, fun j hj => absurd hj (Nat.not_lt_zero _)⟩
            show s.sent.length + min d.length (spaces s) + 1 ≤ s.got.length + s.len
            omega
          · rw [if_neg hc] at hu
            exact h.wr u d' n i hd hu
  | write t =>
    simp only [step] at hs
    split at hs
    · injection hs with hs; subst hs; exact h
    · rename_i d n i hh hw
      obtain ⟨w1, w2, w3, w4, w5, w6⟩ := h.wr t d n i hh hw
      have hsole : ∀ u, u ≠ t → s.w u = .idle := by
        intro u hu
        by_contra hc
        exact hu (h.one u t hc (by rw [hw]; simp))
      split_ifs at hs with h1 h2
      · have hk : slot s.len hh n i = (s.sent.length + i) % s.len := by
          rw [w1, h.head]
          exact slot_eq _ _ _ h1 (by omega)
        split at hs
        · simp at hs
        · rename_i b hb
          injection hs with hs
          subst hs
          rw [hk]
          refine ⟨h.pos, h.head, h.tail, h.le, h.cap, h.pre, ?_, ?_, ?_, h.rd⟩
          · intro j j1 j2
            dsimp only at j1 j2 ⊢
            rw [if_neg (mod_ne (by omega) (by omega))]
            exact h.mem j j1 j2
          · have key : ∀ u, (if u = t then WPc.copy d n (i + 1) hh else s.w u) ≠ .idle → u = t := by
              intro u hu
              by_contra hc
              rw [if_neg hc] at hu
              exact hu (hsole u hc)
            intro x y hx hy
            rw [key x hx, key y hy]
          · intro u d' n' i' h' hu
            dsimp only at hu
            by_cases hc : u = t
            · rw [if_pos hc] at hu
              injection hu with e1 e2 e3 e4
              subst e1 e2 e3 e4
              refine ⟨w1, w2, w3, by omega, w5, ?_⟩
              intro j hj
              dsimp only
              by_cases hji : j = i
              · rw [hji, if_pos rfl, hb]
              · rw [if_neg (mod_ne (by omega) (by omega))]
                exact w6 j (by omega)
            · rw [if_neg hc, hsole u hc] at hu
              simp at hu
      · injection hs with hs
        subst hs
        have hin : i = n := by omega
        subst hin
        have hl : (s.sent ++ d.take i).length = s.sent.length + i := by
          rw [List.length_append, List.length_take, Nat.min_eq_left w3]
        refine ⟨h.pos, ?_, h.tail, ?_, ?_, ?_, ?_, ?_, ?_, ?_⟩
        · show advance s.len hh i = (s.sent ++ d.take i).length % s.len
          rw [hl, w1, h.head]
          exact advance_eq _ _ (by omega)
        · show s.got.length ≤ (s.sent ++ d.take i).length
          omega
        · show (s.sent ++ d.take i).length + 1 ≤ s.got.length + s.len
          omega
        · show s.got = (s.sent ++ d.take i).take s.got.length
          rw [List.take_append_of_le_length h.le]
          exact h.pre
        · intro j j1 j2
          change j < (s.sent ++ d.take i).length at j2
          change (s.sent ++ d.take i)[j]? = some (s.mem (j % s.len))
          rw [hl] at j2
          by_cases hj : j < s.sent.length
          · rw [List.getElem?_append_left hj]
            exact h.mem j j1 hj
          · rw [List.getElem?_append_right (by omega), List.getElem?_take_of_lt (by omega), w6 _ (by omega),
              show s.sent.length + (j - s.sent.length) = j by omega]
        · intro a b ha hb
          exfalso
          apply ha
          dsimp only
          split_ifs with hc
          · rfl
          · exact hsole a hc
        · intro u d' n' i' h' hu
          dsimp only at hu
          split_ifs at hu with hc
          rw [hsole u hc] at hu
          simp at hu
        · intro n' t' g hr
          obtain ⟨r1, r2, r3, r4⟩ := h.rd n' t' g hr
          refine ⟨r1, ?_, r3, ?_⟩
          · show s.got.length + n' ≤ (s.sent ++ d.take i).length
            omega
          · show g = ((s.sent ++ d.take i).drop s.got.length).take g.length
            rw [List.drop_append_of_le_length h.le, List.take_append_of_le_length (by rw [List.length_drop]; omega)]
            exact r4
  | recv max =>
    simp only [step] at hs
    split at hs
    · injection hs with hs; subst hs; exact h
    · split_ifs at hs with h1
      · injection hs with hs; subst hs; exact h
      · injection hs with hs
        subst hs
        refine ⟨h.pos, h.head, h.tail, h.le, h.cap, h.pre, h.mem, h.one, h.wr, ?_⟩
        intro n t g hr
        injection hr with e1 e2 e3
        subst e1 e2 e3
        refine ⟨rfl, ?_, Nat.zero_le _, rfl⟩
        show s.got.length + min (bytes s) max ≤ s.sent.length
        omega
  | read =>
    simp only [step] at hs
    split at hs
    · injection hs with hs; subst hs; exact h
    · rename_i n t g hr
      obtain ⟨r1, r2, r3, r4⟩ := h.rd n t g hr
      split_ifs at hs with h1 h2
      · injection hs with hs
        subst hs
        refine ⟨h.pos, h.head, h.tail, h.le, h.cap, h.pre, h.mem, h.one, h.wr, ?_⟩
        intro n' t' g' hr'
        injection hr' with e1 e2 e3
        subst e1 e2 e3
        refine ⟨r1, r2, by simp; omega, ?_⟩
        have hk : slot s.len t n g.length = (s.got.length + g.length) % s.len := by
          rw [r1, h.tail]
          exact slot_eq _ _ _ h1 (by omega)
        have hm := h.mem (s.got.length + g.length) (by omega) (by omega)
        dsimp only
        rw [List.length_append, List.length_singleton, List.take_add_one, ← r4, List.getElem?_drop, hm, hk]
        rfl
      · injection hs with hs
        subst hs
        have hgn : g.length = n := by omega
        have hl : (s.got ++ g).length = s.got.length + n := by rw [List.length_append, hgn]
        refine ⟨h.pos, h.head, ?_, ?_, ?_, ?_, ?_, h.one, ?_, by simp⟩
        · show advance s.len t n = (s.got ++ g).length % s.len
          rw [hl, r1, h.tail]
          exact advance_eq _ _ (by omega)
        · show (s.got ++ g).length ≤ s.sent.length
          omega
        · show s.sent.length + 1 ≤ (s.got ++ g).length + s.len
          omega
        · show s.got ++ g = s.sent.take (s.got ++ g).length
          rw [List.length_append, List.take_add]
          congr 1
          exact h.pre
        · intro j j1 j2
          change (s.got ++ g).length ≤ j at j1
          exact h.mem j (by omega) j2
        · intro u d' n' i' h' hu
          obtain ⟨w1, w2, w3, w4, w5, w6⟩ := h.wr u d' n' i' h' hu
          refine ⟨w1, w2, w3, w4, ?_, w6⟩
          show s.sent.length + n' + 1 ≤ (s.got ++ g).length + s.len
          omega

theorem run_cons (s : Sb) (e : Ev) (es : List Ev) :
    run s (e :: es) = (match step s e with | .error u => .error u | .ok t => run t es) := by
  unfold run
  rw [List.foldlM_cons]
  cases step s e <;> rfl

theorem run_inv (evs : List Ev) (s s' : Sb) (h : Inv s) (hx : Excl s evs) (hr : run s evs = .ok s') : Inv s' := by
  induction evs generalizing s with
  | nil =>
    simp only [run, List.foldlM_nil, pure, Except.pure, Except.ok.injEq] at hr
    subst hr
    exact h
  | cons e es ih =>
    rw [run_cons] at hr
    obtain ⟨x1, x2⟩ := hx
    cases hs : step s e with
    | error u => rw [hs] at hr; simp at hr
    | ok t =>
      rw [hs] at hr
      refine ih t (step_inv h e ?_ hs) (x2 t hs) hr
      rintro a d rfl
      exact x1

/-- What is in the buffer: the bytes between the indices, in the order they would be read. -/
def content (s : Sb) : List UInt8 := (List.range (bytes s)).map fun k => s.mem ((s.tail + k) % s.len)

theorem Inv.content_eq {s : Sb} (h : Inv s) : content s = s.sent.drop s.got.length := by
  apply List.ext_getElem?
  intro k
  unfold content
  rw [List.getElem?_map, List.getElem?_drop]
  by_cases hk : k < bytes s
  · have hb := h.bytes_eq
    rw [List.getElem?_range hk, h.mem _ (by omega) (by omega), h.tail, Option.map_some, Nat.mod_add_mod]
  · have hb := h.bytes_eq
    have := h.le
    rw [List.getElem?_eq_none (by rw [List.length_range]; omega), List.getElem?_eq_none (by omega)]
    rfl

/-- **C98, order and completeness.** For every buffer of any size and every interleaving of
non-overlapping sends with receives, down to the single byte: what was received, followed by
what the buffer holds, is exactly what was sent; the buffer holds at most one byte less than
its storage; and the two counts and the emptiness test that user code reads say the truth. -/
theorem C98_fifo (len : Nat) (mem : Nat → UInt8) (hlen : 0 < len) (evs : List Ev) (hx : Excl (create len mem) evs)
    (s : Sb) (hr : run (create len mem) evs = .ok s) :
    s.sent = s.got ++ content s ∧ (content s).length = bytes s ∧ bytes s + spaces s = s.len - 1 ∧
      (isEmpty s = true ↔ content s = []) := by
  have h := run_inv evs _ s (create_inv len mem hlen) hx hr
  have hc := h.content_eq
  have hb := h.bytes_eq
  have hsp := h.spaces_eq
  have h1 := h.cap
  have h2 := h.le
  refine ⟨?_, ?_, by omega, ?_⟩
  · rw [hc]
    conv_rhs => rw [h.pre]
    rw [List.length_take, Nat.min_eq_left h2, List.take_append_drop]
  · rw [hc, List.length_drop, hb]
  · unfold isEmpty
    rw [beq_iff_eq, hc, List.drop_eq_nil_iff, h.head, h.tail]
    constructor
    · intro he
      by_contra hlt
      exact mod_ne (len := s.len) (a := s.got.length) (b := s.sent.length) (by omega) (by omega) he.symm
    · intro hge
      rw [show s.sent.length = s.got.length by omega]

/-- **C98, safety.** Such a history of non-empty sends accesses nothing outside the storage or
the caller's data and fails no assertion. -/
theorem C98_safe (len : Nat) (mem : Nat → UInt8) (hlen : 0 < len) (evs : List Ev) (hx : Excl (create len mem) evs)
    (hne : ∀ t d, Ev.send t d ∈ evs → d ≠ []) : ∃ s, run (create len mem) evs = .ok s := by
  suffices H : ∀ s, Inv s → Excl s evs → ∃ s', run s evs = .ok s' from H _ (create_inv len mem hlen) hx
  clear hx
  induction evs with
  | nil => exact fun s _ _ => ⟨s, rfl⟩
  | cons e es ih =>
    intro s h hx
    obtain ⟨x1, x2⟩ := hx
    have : ∃ t, step s e = .ok t := by
      cases e with
      | send t d =>
        have hd := hne t d List.mem_cons_self
        have hdl : 0 < d.length := List.length_pos_iff.mpr hd
        simp only [step]
        split
        · exact ⟨_, rfl⟩
        · by_cases h0 : spaces s = 0
          · rw [if_pos h0]; exact ⟨_, rfl⟩
          · rw [if_neg h0, if_neg (by omega)]; exact ⟨_, rfl⟩
      | write t =>
        simp only [step]
        split
        · exact ⟨_, rfl⟩
        · rename_i d n i hh hw
          obtain ⟨w1, w2, w3, w4, w5, w6⟩ := h.wr t d n i hh hw
          by_cases hi : i < n
          · rw [if_pos hi, w1, h.head, slot_eq _ _ _ hi (by have := h.le; have := h.cap; omega),
              if_pos (Nat.mod_lt _ h.pos), List.getElem?_eq_getElem (by omega)]
            exact ⟨_, rfl⟩
          · rw [if_neg hi]; exact ⟨_, rfl⟩
      | recv max =>
        simp only [step]
        split
        · exact ⟨_, rfl⟩
        · split_ifs <;> exact ⟨_, rfl⟩
      | read =>
        simp only [step]
        split
        · exact ⟨_, rfl⟩
        · rename_i n t g hr
          obtain ⟨r1, r2, r3, r4⟩ := h.rd n t g hr
          by_cases hi : g.length < n
          · rw [if_pos hi, r1, h.tail, slot_eq _ _ _ hi (by have := h.le; have := h.cap; omega),
              if_pos (Nat.mod_lt _ h.pos)]
            exact ⟨_, rfl⟩
          · rw [if_neg hi]; exact ⟨_, rfl⟩
    obtain ⟨t, ht⟩ := this
    obtain ⟨s', hs'⟩ := ih (fun a d hm => hne a d (List.mem_cons_of_mem _ hm)) t
      (step_inv h e (by rintro a d rfl; exact x1) ht) (x2 t ht)
    exact ⟨s', by rw [run_cons, ht]; exact hs'⟩

/-! ## Whole calls -/

/-- `k` bytes of a copy. -/
theorem writes (k : Nat) : ∀ (s : Sb) (t : Nat) (d : List UInt8) (n i h : Nat), s.w t = .copy d n i h → i + k ≤ n →
    n ≤ d.length → n < s.len → h < s.len →
    ∃ s', run s (List.replicate k (.write t)) = .ok s' ∧ s'.w t = .copy d n (i + k) h ∧ (∀ u, u ≠ t → s'.w u = s.w u) ∧
      s'.len = s.len ∧ s'.head = s.head ∧ s'.tail = s.tail ∧ s'.r = s.r ∧ s'.sent = s.sent ∧ s'.got = s.got := by
  induction k with
  | zero => exact fun s t d n i h hw _ _ _ _ => ⟨s, rfl, hw, fun _ _ => rfl, rfl, rfl, rfl, rfl, rfl, rfl⟩
  | succ k ih =>
    intro s t d n i h hw hk hd hn hh
    have hsl : slot s.len h n i < s.len := by
      unfold slot
      dsimp only
      split_ifs <;> omega
    have hb := List.getElem?_eq_getElem (show i < d.length by omega)
    obtain ⟨s', r1, r2, r3, r4, r5, r6, r7, r8, r9⟩ := ih { s with
        mem := fun j => if j = slot s.len h n i then d[i]'(by omega) else s.mem j
        w := fun u => if u = t then .copy d n (i + 1) h else s.w u } t d n (i + 1) h (if_pos rfl) (by omega) hd hn hh
    refine ⟨s', ?_, ?_, ?_, r4, r5, r6, r7, r8, r9⟩
    · rw [List.replicate_succ, run_cons]
      have : step s (.write t) = .ok { s with
          mem := fun j => if j = slot s.len h n i then d[i]'(by omega) else s.mem j
          w := fun u => if u = t then .copy d n (i + 1) h else s.w u } := by
        simp only [step, hw]
        rw [if_pos (by omega), if_pos hsl, hb]
      rw [this]
      exact r1
    · rw [r2, show i + 1 + k = i + (k + 1) by omega]
    · intro u hu
      rw [r3 u hu]
      exact if_neg hu

/-- The rest of a send: remaining bytes and the index. -/
theorem finish_send (s : Sb) (t : Nat) (d : List UInt8) (n i h : Nat) (hw : s.w t = .copy d n i h) (hi : i ≤ n)
    (hd : n ≤ d.length) (hn : n < s.len) (hh : h < s.len) :
    ∃ s', run s (List.replicate (n - i + 1) (.write t)) = .ok s' ∧ s'.w t = .idle ∧ (∀ u, u ≠ t → s'.w u = s.w u) ∧
      s'.len = s.len ∧ s'.head = advance s.len h n ∧ s'.tail = s.tail ∧ s'.r = s.r ∧
      s'.sent = s.sent ++ d.take n ∧ s'.got = s.got := by
  obtain ⟨s', r1, r2, r3, r4, r5, r6, r7, r8, r9⟩ := writes (n - i) s t d n i h hw (by omega) hd hn hh
  rw [show i + (n - i) = n by omega] at r2
  have hst : step s' (.write t) = .ok { s' with
      head := advance s'.len h n, w := fun u => if u = t then .idle else s'.w u, sent := s'.sent ++ d.take n } := by
    simp only [step, r2, Nat.lt_irrefl, if_false]
  refine ⟨{ s' with
      head := advance s'.len h n, w := fun u => if u = t then .idle else s'.w u, sent := s'.sent ++ d.take n },
    ?_, if_pos rfl, ?_, r4, ?_, r6, r7, ?_, r9⟩
  · rw [List.replicate_succ']
    unfold run at r1 ⊢
    rw [List.foldlM_append, r1]
    show run s' [.write t] = _
    rw [run_cons, hst]
    rfl
  · intro u hu
    rw [← r3 u hu]
    exact if_neg hu
  · show advance s'.len h n = _
    rw [r4]
  · show s'.sent ++ d.take n = _
    rw [r8]

theorem excl_writes (k : Nat) (t : Nat) (s : Sb) : Excl s (List.replicate k (.write t)) := by
  induction k generalizing s with
  | zero => trivial
  | succ k ih => exact ⟨trivial, fun s' _ => ih s'⟩

theorem excl_reads (k : Nat) (s : Sb) : Excl s (List.replicate k .read) := by
  induction k generalizing s with
  | zero => trivial
  | succ k ih => exact ⟨trivial, fun s' _ => ih s'⟩

/-- States reachable with non-overlapping sends. -/
def Reach (len : Nat) (s : Sb) : Prop :=
  0 < len ∧ ∃ mem evs, Excl (create len mem) evs ∧ run (create len mem) evs = .ok s

theorem Reach.inv {len : Nat} {s : Sb} (h : Reach len s) : Inv s := by
  obtain ⟨h0, mem, evs, h1, h2⟩ := h
  exact run_inv evs _ s (create_inv len mem h0) h1 h2

/-- **C98, a whole send** of a non-empty message to a buffer nobody else is sending to: it
appends the longest prefix that fits into the storage less one byte, and changes nothing else. -/
theorem C98_send (len : Nat) (s : Sb) (hr : Reach len s) (hidle : ∀ u, s.w u = .idle) (t : Nat) (d : List UInt8)
    (hd : d ≠ []) :
    ∃ k s', run s (.send t d :: List.replicate k (.write t)) = .ok s' ∧
      content s' = content s ++ d.take (s.len - 1 - (content s).length) ∧ s'.got = s.got ∧
      (∀ u, s'.w u = .idle) ∧ s'.r = s.r := by
  have h := hr.inv
  have hsp := h.spaces_eq
  have h1 := h.cap
  have h2 := h.le
  have hc := h.content_eq
  have hcl : (content s).length = s.sent.length - s.got.length := by rw [hc, List.length_drop]
  have hdl : 0 < d.length := List.length_pos_iff.mpr hd
  by_cases h0 : spaces s = 0
  · refine ⟨0, s, ?_, ?_, rfl, hidle, rfl⟩
    · rw [run_cons]
      simp only [step, hidle t, h0, if_true]
      rfl
    · rw [hcl, show s.len - 1 - (s.sent.length - s.got.length) = 0 by omega]
      simp
  · have hst : step s (.send t d) = .ok { s with
        w := fun u => if u = t then .copy d (min d.length (spaces s)) 0 s.head else s.w u } := by
      simp only [step, hidle t, h0, if_false]
      rw [if_neg (by omega)]
    have hhead : s.head < s.len := by rw [h.head]; exact Nat.mod_lt _ h.pos
    obtain ⟨s', r1, r2, r3, r4, r5, r6, r7, r8, r9⟩ := finish_send { s with
        w := fun u => if u = t then .copy d (min d.length (spaces s)) 0 s.head else s.w u } t d
      (min d.length (spaces s)) 0 s.head (if_pos rfl) (Nat.zero_le _) (Nat.min_le_left _ _) (by
        show _ < s.len
        omega) hhead
    have hrun : run s (.send t d :: List.replicate (min d.length (spaces s) - 0 + 1) (.write t)) = .ok s' := by
      rw [run_cons, hst]
      exact r1
    have hx : Excl s (.send t d :: List.replicate (min d.length (spaces s) - 0 + 1) (.write t)) :=
      ⟨fun u _ => hidle u, fun s' _ => excl_writes _ _ s'⟩
    have h' : Inv s' := run_inv _ s s' h hx hrun
    refine ⟨_, s', hrun, ?_, r9, ?_, r7⟩
    · rw [h'.content_eq, hcl, r8, r9, hc, List.drop_append_of_le_length h2]
      congr 1
      show d.take (min d.length (spaces s)) = _
      rw [List.take_eq_take_iff]
      omega
    · intro u
      by_cases hu : u = t
      · rw [hu]; exact r2
      · rw [r3 u hu]
        dsimp only
        rw [if_neg hu]
        exact hidle u

theorem reads (k : Nat) : ∀ (s : Sb) (n t : Nat) (g : List UInt8), s.r = .copy n t g → g.length + k = n →
    n < s.len → t < s.len →
    ∃ s' g', run s (List.replicate (k + 1) .read) = .ok s' ∧ g'.length = n ∧ s'.got = s.got ++ g' ∧ s'.sent = s.sent ∧
      s'.w = s.w ∧ s'.r = .idle ∧ s'.len = s.len := by
  induction k with
  | zero =>
    intro s n t g hr hk hn ht
    refine ⟨{ s with tail := advance s.len t n, r := .idle, got := s.got ++ g }, g, ?_, by omega, rfl, rfl, rfl, rfl, rfl⟩
    rw [List.replicate_succ, run_cons]
    have : step s .read = .ok { s with tail := advance s.len t n, r := .idle, got := s.got ++ g } := by
      simp only [step, hr]
      rw [if_neg (by omega)]
    rw [this]
    rfl
  | succ k ih =>
    intro s n t g hr hk hn ht
    have hsl : slot s.len t n g.length < s.len := by
      unfold slot
      dsimp only
      split_ifs <;> omega
    obtain ⟨s', g', r1, r2, r3, r4, r5, r6, r7⟩ := ih { s with r := .copy n t (g ++ [s.mem (slot s.len t n g.length)]) }
      n t _ rfl (by simp; omega) hn ht
    refine ⟨s', g', ?_, r2, r3, r4, r5, r6, r7⟩
    rw [List.replicate_succ, run_cons]
    have : step s .read = .ok { s with r := .copy n t (g ++ [s.mem (slot s.len t n g.length)]) } := by
      simp only [step, hr]
      rw [if_pos (by omega), if_pos hsl]
    rw [this]
    exact r1

/-- **C98, a whole receive**: it takes the first `max` bytes, or all if there are fewer, and
leaves the rest. -/
theorem C98_recv (len : Nat) (s : Sb) (hr : Reach len s) (hidle : s.r = .idle) (max : Nat) :
    ∃ k s', run s (.recv max :: List.replicate k .read) = .ok s' ∧
      s'.got = s.got ++ (content s).take max ∧ content s' = (content s).drop max ∧ s'.w = s.w ∧ s'.r = .idle := by
  have h := hr.inv
  have hb := h.bytes_eq
  have h1 := h.cap
  have h2 := h.le
  have hc := h.content_eq
  have hcl : (content s).length = s.sent.length - s.got.length := by rw [hc, List.length_drop]
  have hx : ∀ k, Excl s (.recv max :: List.replicate k .read) := fun k => ⟨trivial, fun s' _ => excl_reads k s'⟩
  by_cases h0 : min (bytes s) max = 0
  · refine ⟨0, s, ?_, ?_, ?_, rfl, hidle⟩
    · rw [run_cons]
      simp only [step, hidle, h0, if_true]
      rfl
    · have : (content s).take max = [] := by
        rw [← List.length_eq_zero_iff, List.length_take]
        omega
      rw [this, List.append_nil]
    · symm
      by_cases hm : max = 0
      · rw [hm, List.drop_zero]
      · have : content s = [] := by
          rw [← List.length_eq_zero_iff]
          omega
        rw [this, List.drop_nil]
  · have hst : step s (.recv max) = .ok { s with r := .copy (min (bytes s) max) s.tail [] } := by
      simp only [step, hidle, h0, if_false]
    have htail : s.tail < s.len := by rw [h.tail]; exact Nat.mod_lt _ h.pos
    obtain ⟨s', g', r1, r2, r3, r4, r5, r6, r7⟩ := reads (min (bytes s) max)
      { s with r := .copy (min (bytes s) max) s.tail [] } (min (bytes s) max) s.tail [] rfl (by simp) (by
        show _ < s.len
        omega) htail
    have hrun : run s (.recv max :: List.replicate (min (bytes s) max + 1) .read) = .ok s' := by
      rw [run_cons, hst]
      exact r1
    have h' : Inv s' := run_inv _ s s' h (hx _) hrun
    dsimp only at r3 r4
    have hg : g' = (content s).take max := by
      have hp := h'.pre
      rw [r3, r4, List.length_append, List.take_add, ← h.pre] at hp
      have := List.append_cancel_left hp
      rw [this, hc, r2, List.take_eq_take_iff, List.length_drop]
      omega
    refine ⟨_, s', hrun, ?_, ?_, r5, r6⟩
    · rw [r3, hg]
    · rw [h'.content_eq, hc, r4, r3, List.length_append, r2, List.drop_drop]
      by_cases hm : max ≤ bytes s
      · rw [Nat.min_eq_right hm]
      · rw [List.drop_eq_nil_of_le (by omega), List.drop_eq_nil_of_le (by omega)]

/-! ## Two senders -/

/-- C98 without the condition on senders. -/
def AnySenders : Prop :=
  ∀ (len : Nat) (mem : Nat → UInt8) (evs : List Ev) (s : Sb), 0 < len → run (create len mem) evs = .ok s →
    (∀ u, s.w u = .idle) → s.sent.length = s.got.length + bytes s

/-- **C98 needs non-overlapping sends**: whenever one sender interrupts another at any point of
its copy and completes, and both messages would fit, the bytes in the buffer grow by the
interrupted message only, although both calls report their messages as sent. -/
theorem C98_overlap_loses (len : Nat) (s : Sb) (hr : Reach len s) (hidle : ∀ u, s.w u = .idle) (a b : Nat) (hab : a ≠ b)
    (d1 d2 : List UInt8) (h1 : d1 ≠ []) (h2 : d2 ≠ []) (hfit : d1.length + d2.length ≤ spaces s)
    (i : Nat) (hi : i ≤ d1.length) :
    ∃ s', run s (.send a d1 :: (List.replicate i (.write a) ++ .send b d2 :: (List.replicate (d2.length + 1) (.write b) ++
        List.replicate (d1.length - i + 1) (.write a)))) = .ok s' ∧
      s'.sent = s.sent ++ d2 ++ d1 ∧ bytes s' = bytes s + d1.length := by
  have h := hr.inv
  have hsp := h.spaces_eq
  have hby := h.bytes_eq
  have hcap := h.cap
  have hle := h.le
  have hl1 : 0 < d1.length := List.length_pos_iff.mpr h1
  have hl2 : 0 < d2.length := List.length_pos_iff.mpr h2
  have hhead : s.head < s.len := by rw [h.head]; exact Nat.mod_lt _ h.pos
  have happ : ∀ (x y : List Ev) (s1 s2 : Sb), run s1 x = .ok s2 → run s1 (x ++ y) = run s2 y := by
    intro x y s1 s2 hx
    unfold run at hx ⊢
    rw [List.foldlM_append, hx]
    rfl
  have e1 : step s (.send a d1) = .ok { s with w := fun u => if u = a then .copy d1 d1.length 0 s.head else s.w u } := by
    simp only [step, hidle a]
    rw [if_neg (by omega), Nat.min_eq_left (by omega), if_neg (by omega)]
  obtain ⟨s1, r1, r2, r3, r4, r5, r6, r7, r8, r9⟩ := writes i _ a d1 d1.length 0 s.head
    (show (Sb.w { s with w := fun u => if u = a then .copy d1 d1.length 0 s.head else s.w u }) a = _ from if_pos rfl)
    (by omega) (Nat.le_refl _) (by show _ < s.len; omega) hhead
  dsimp only at r4 r5 r6 r8 r9
  have hs1 : spaces s1 = spaces s := by unfold spaces; rw [r4, r5, r6]
  have hb1 : s1.w b = .idle := by
    rw [r3 b (Ne.symm hab)]
    dsimp only
    rw [if_neg (Ne.symm hab)]
    exact hidle b
  have e2 : step s1 (.send b d2) = .ok { s1 with w := fun u => if u = b then .copy d2 d2.length 0 s1.head else s1.w u } := by
    simp only [step, hb1, hs1]
    rw [if_neg (by omega), Nat.min_eq_left (by omega), if_neg (by omega)]
  obtain ⟨s2, q1, q2, q3, q4, q5, q6, q7, q8, q9⟩ := finish_send
    { s1 with w := fun u => if u = b then .copy d2 d2.length 0 s1.head else s1.w u } b d2 d2.length 0 s1.head
    (if_pos rfl) (Nat.zero_le _) (Nat.le_refl _) (by show _ < s1.len; omega) (by show _ < s1.len; omega)
  dsimp only at q4 q6 q8 q9
  have ha2 : s2.w a = .copy d1 d1.length i s.head := by
    rw [q3 a hab]
    dsimp only
    rw [if_neg hab, r2, Nat.zero_add]
  obtain ⟨s3, p1, p2, p3, p4, p5, p6, p7, p8, p9⟩ := finish_send s2 a d1 d1.length i s.head ha2 hi (Nat.le_refl _)
    (by omega) (by omega)
  refine ⟨s3, ?_, ?_, ?_⟩
  · rw [run_cons, e1]
    dsimp only
    rw [happ _ _ _ _ r1, run_cons, e2]
    dsimp only
    rw [Nat.sub_zero] at q1
    rw [happ _ _ _ _ q1]
    exact p1
  · rw [p8, q8, r8, List.take_of_length_le (Nat.le_refl _), List.take_of_length_le (Nat.le_refl _)]
  · have ht : s.tail < s.len := by rw [h.tail]; exact Nat.mod_lt _ h.pos
    unfold bytes at hby ⊢
    dsimp only at hby ⊢
    rw [p5, p4, p6, q4, q6, r4, r6]
    unfold advance
    split_ifs at hby ⊢ <;> omega

theorem C98_any_senders_false : ¬ AnySenders := by
  intro hA
  obtain ⟨s', h1, h2, h3⟩ := C98_overlap_loses 8 (create 8 fun _ => 0) ⟨by omega, fun _ => 0, [], trivial, rfl⟩
    (fun _ => rfl) 0 1 (by decide) [1] [2] (by decide) (by decide) (by decide) 0 (by decide)
  have h4 : ∀ u, s'.w u = .idle := by
    have : run (create 8 fun _ => 0) [.send 0 [1], .send 1 [2], .write 1, .write 1, .write 0, .write 0] = .ok s' := h1
    simp [run, step, create, spaces, slot, advance, bind, Except.bind, pure, Except.pure] at this
    subst this
    intro u
    dsimp only
    split_ifs <;> rfl
  have h5 := hA 8 (fun _ => 0) _ s' (by omega) h1 h4
  have h6 : s'.got = [] := by
    have : run (create 8 fun _ => 0) [.send 0 [1], .send 1 [2], .write 1, .write 1, .write 0, .write 0] = .ok s' := h1
    simp [run, step, create, spaces, slot, advance, bind, Except.bind, pure, Except.pure] at this
    subst this
    rfl
  rw [h2, h3, h6] at h5
  simp [create, bytes] at h5

/-- A buffer of four bytes storage, sending and receiving interleaved across the wrap. -/
example : ∃ s, run (create 4 fun _ => 9) [.send 0 [1, 2], .write 0, .write 0, .write 0, .recv 8, .send 0 [3, 4], .write 0,
    .read, .read, .read, .write 0, .recv 8, .read, .read] = .ok s ∧ s.got = [1, 2, 3] ∧ s.sent = [1, 2, 3] ∧
      content s = [] := by
  refine ⟨_, rfl, ?_, ?_, ?_⟩ <;> decide

end Verif.StreamBuf
