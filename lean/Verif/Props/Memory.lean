import Verif.Spec.Memory
import Verif.Spec.Queue
import Verif.Props.Queue
import Verif.Props.StreamBuffer
import Verif.Proofs.Context

set_option autoImplicit false

/-!
# C163: kernel objects keep to the memory they were given
-/

namespace Verif.Memory

/-! ## One object in a larger memory -/

theorem operate_sim (a : Queue.Q) (m : Nat → UInt8) (op : Queue.Op) (r : Queue.Res) (a' : Queue.Q)
    (hm : ∀ j, j < a.length * a.size → m j = a.mem j) (h : operate a op = .ok (r, a')) :
    ∃ m', operate { a with mem := m } op = .ok (r, { a' with mem := m' }) ∧
      (∀ j, j < a.length * a.size → m' j = a'.mem j) ∧
      (∀ j, a.length * a.size ≤ j → m' j = m j) ∧ a'.length = a.length ∧ a'.size = a.size := by
  cases op with
  | send x =>
    unfold operate Queue.send at h ⊢
    dsimp only at h ⊢
    by_cases hw : a.waiting < a.length
    · rw [if_pos hw] at h ⊢
      unfold Queue.copyTo at h ⊢
      dsimp only at h ⊢
      by_cases h1 : a.length * a.size < a.writeTo + a.size
      · rw [if_pos h1] at h; cases h
      · rw [if_neg h1] at h ⊢
        by_cases h2 : x.length < a.size
        · rw [if_pos h2] at h; cases h
        · rw [if_neg h2] at h ⊢
          dsimp only at h ⊢
          injection h with h
          injection h with hr ha
          subst hr ha
          refine ⟨_, rfl, ?_, ?_, rfl, rfl⟩
          · intro j hj
            dsimp only
            split
            · rfl
            · exact hm j hj
          · intro j hj
            rw [if_neg (by omega)]
    · rw [if_neg hw] at h ⊢
      dsimp only at h ⊢
      injection h with h
      injection h with hr ha
      subst hr ha
      exact ⟨m, rfl, hm, fun _ _ => rfl, rfl, rfl⟩
  | recv =>
    unfold operate Queue.recv at h ⊢
    dsimp only at h ⊢
    by_cases hw : 0 < a.waiting
    · rw [if_pos hw] at h ⊢
      unfold Queue.copyFrom at h ⊢
      dsimp only at h ⊢
      generalize hR : (if a.length * a.size ≤ a.readFrom + a.size then 0 else a.readFrom + a.size) = R at h ⊢
      by_cases h1 : a.length * a.size < R + a.size
      · rw [if_pos h1] at h; cases h
      · rw [if_neg h1] at h ⊢
        dsimp only at h ⊢
        injection h with h
        injection h with hr ha
        subst hr ha
        refine ⟨m, ?_, hm, fun _ _ => rfl, rfl, rfl⟩
        have e : (List.range a.size).map (fun k => m (R + k)) =
            (List.range a.size).map (fun k => a.mem (R + k)) :=
          List.map_congr_left fun k hk => hm _ (by have := List.mem_range.mp hk; omega)
        rw [e]
    · rw [if_neg hw] at h ⊢
      dsimp only at h ⊢
      injection h with h
      injection h with hr ha
      subst hr ha
      exact ⟨m, rfl, hm, fun _ _ => rfl, rfl, rfl⟩

theorem access_sim (a : StreamBuf.Sb) (m : Nat → UInt8) (e : StreamBuf.Ev) (a' : StreamBuf.Sb)
    (hm : ∀ j, j < a.len → m j = a.mem j) (h : StreamBuf.step a e = .ok a') :
    ∃ m', StreamBuf.step { a with mem := m } e = .ok { a' with mem := m' } ∧
      (∀ j, j < a.len → m' j = a'.mem j) ∧ (∀ j, a.len ≤ j → m' j = m j) ∧ a'.len = a.len := by
  have hs : StreamBuf.spaces { a with mem := m } = StreamBuf.spaces a := rfl
  have hb : StreamBuf.bytes { a with mem := m } = StreamBuf.bytes a := rfl
  have same : ∀ b : StreamBuf.Sb, b.mem = a.mem → ∀ j, j < a.len → m j = b.mem j :=
    fun b hb j hj => by rw [hb]; exact hm j hj
  cases e with
  | send t d =>
    unfold StreamBuf.step at h ⊢
    dsimp only at h ⊢
    rw [hs]
    cases hw : a.w t with
    | copy d' n i h' =>
      rw [hw] at h
      dsimp only at h ⊢
      injection h with h
      subst h
      exact ⟨m, rfl, hm, fun _ _ => rfl, rfl⟩
    | idle =>
      rw [hw] at h
      dsimp only at h ⊢
      by_cases h0 : StreamBuf.spaces a = 0
      · rw [if_pos h0] at h ⊢
        injection h with h
        subst h
        exact ⟨m, rfl, hm, fun _ _ => rfl, rfl⟩
      · rw [if_neg h0] at h ⊢
        by_cases h1 : min d.length (StreamBuf.spaces a) = 0
        · rw [if_pos h1] at h; cases h
        · rw [if_neg h1] at h ⊢
          injection h with h
          subst h
          exact ⟨m, rfl, hm, fun _ _ => rfl, rfl⟩
  | write t =>
    unfold StreamBuf.step at h ⊢
    dsimp only at h ⊢
    cases hw : a.w t with
    | idle =>
      rw [hw] at h
      dsimp only at h ⊢
      injection h with h
      subst h
      exact ⟨m, rfl, hm, fun _ _ => rfl, rfl⟩
    | copy d n i p =>
      rw [hw] at h
      dsimp only at h ⊢
      by_cases hi : i < n
      · rw [if_pos hi] at h ⊢
        by_cases hk : StreamBuf.slot a.len p n i < a.len
        · rw [if_pos hk] at h ⊢
          cases hd : d[i]? with
          | none => rw [hd] at h; cases h
          | some b =>
            rw [hd] at h
            dsimp only at h ⊢
            injection h with h
            subst h
            refine ⟨_, rfl, ?_, ?_, rfl⟩
            · intro j hj
              dsimp only
              split
              · rfl
              · exact hm j hj
            · intro j hj
              rw [if_neg (by omega)]
        · rw [if_neg hk] at h; cases h
      · rw [if_neg hi] at h ⊢
        injection h with h
        subst h
        exact ⟨m, rfl, hm, fun _ _ => rfl, rfl⟩
  | recv k =>
    unfold StreamBuf.step at h ⊢
    dsimp only at h ⊢
    rw [hb]
    cases hr : a.r with
    | copy n t got =>
      rw [hr] at h
      dsimp only at h ⊢
      injection h with h
      subst h
      exact ⟨m, by simp only [hr], hm, fun _ _ => rfl, rfl⟩
    | idle =>
      rw [hr] at h
      dsimp only at h ⊢
      by_cases h0 : min (StreamBuf.bytes a) k = 0
      · rw [if_pos h0] at h ⊢
        injection h with h
        subst h
        exact ⟨m, by simp only [hr], hm, fun _ _ => rfl, rfl⟩
      · rw [if_neg h0] at h ⊢
        injection h with h
        subst h
        exact ⟨m, rfl, hm, fun _ _ => rfl, rfl⟩
  | read =>
    unfold StreamBuf.step at h ⊢
    dsimp only at h ⊢
    cases hr : a.r with
    | idle =>
      rw [hr] at h
      dsimp only at h ⊢
      injection h with h
      subst h
      exact ⟨m, by simp only [hr], hm, fun _ _ => rfl, rfl⟩
    | copy n t got =>
      rw [hr] at h
      dsimp only at h ⊢
      by_cases hi : got.length < n
      · rw [if_pos hi] at h ⊢
        by_cases hk : StreamBuf.slot a.len t n got.length < a.len
        · rw [if_pos hk] at h ⊢
          injection h with h
          subst h
          refine ⟨m, ?_, hm, fun _ _ => rfl, rfl⟩
          rw [hm _ hk]
        · rw [if_neg hk] at h; cases h
      · rw [if_neg hi] at h ⊢
        injection h with h
        subst h
        exact ⟨m, rfl, hm, fun _ _ => rfl, rfl⟩

/-! ## Stream buffers never leave their storage, whoever sends -/

/-- Positions are inside the storage and no copy is longer than it. -/
structure Inside (s : StreamBuf.Sb) : Prop where
  head : s.head < s.len
  tail : s.tail < s.len
  w : ∀ t d n i h, s.w t = .copy d n i h → n ≤ d.length ∧ n < s.len ∧ h < s.len
  r : ∀ n t got, s.r = .copy n t got → n < s.len ∧ t < s.len

theorem slot_lt {len p n i : Nat} (hp : p < len) (hn : n < len) (hi : i < n) :
    StreamBuf.slot len p n i < len := by
  unfold StreamBuf.slot
  dsimp only
  split <;> omega

theorem advance_lt {len p n : Nat} (hp : p < len) (hn : n < len) : StreamBuf.advance len p n < len := by
  unfold StreamBuf.advance
  split <;> omega

theorem spaces_lt {s : StreamBuf.Sb} (h : Inside s) : StreamBuf.spaces s < s.len := by
  have h1 := h.head
  have h2 := h.tail
  unfold StreamBuf.spaces
  dsimp only
  split <;> omega

theorem bytes_lt {s : StreamBuf.Sb} (h : Inside s) : StreamBuf.bytes s < s.len := by
  have h1 := h.head
  have h2 := h.tail
  unfold StreamBuf.bytes
  dsimp only
  split <;> omega

theorem inside_step {s : StreamBuf.Sb} (h : Inside s) (e : StreamBuf.Ev)
    (he : ∀ t d, e = .send t d → d ≠ []) : ∃ s', StreamBuf.step s e = .ok s' ∧ Inside s' := by
  cases e with
  | send t d =>
    unfold StreamBuf.step
    dsimp only
    cases hw : s.w t with
    | copy d' n i p => exact ⟨s, rfl, h⟩
    | idle =>
      dsimp only
      by_cases h0 : StreamBuf.spaces s = 0
      · rw [if_pos h0]; exact ⟨s, rfl, h⟩
      · have hd : 0 < d.length := List.length_pos_iff.mpr (he t d rfl)
        have hsp := spaces_lt h
        rw [if_neg h0, if_neg (by omega)]
        refine ⟨_, rfl, h.head, h.tail, ?_, h.r⟩
        intro t' d' n i p hc
        dsimp only at hc ⊢
        by_cases ht : t' = t
        · rw [if_pos ht] at hc
          injection hc with c1 c2 c3 c4
          subst c1 c2 c4
          exact ⟨Nat.min_le_left _ _, by omega, h.head⟩
        · rw [if_neg ht] at hc
          exact h.w t' d' n i p hc
  | write t =>
    unfold StreamBuf.step
    dsimp only
    cases hw : s.w t with
    | idle => exact ⟨s, rfl, h⟩
    | copy d n i p =>
      obtain ⟨w1, w2, w3⟩ := h.w t d n i p hw
      dsimp only
      by_cases hi : i < n
      · rw [if_pos hi, if_pos (slot_lt w3 w2 hi), List.getElem?_eq_getElem (by omega)]
        refine ⟨_, rfl, h.head, h.tail, ?_, h.r⟩
        intro t' d' n' i' p' hc
        dsimp only at hc ⊢
        by_cases ht : t' = t
        · rw [if_pos ht] at hc
          injection hc with c1 c2 c3 c4
          subst c1 c2 c4
          exact ⟨w1, w2, w3⟩
        · rw [if_neg ht] at hc
          exact h.w t' d' n' i' p' hc
      · rw [if_neg hi]
        refine ⟨_, rfl, advance_lt w3 w2, h.tail, ?_, h.r⟩
        intro t' d' n' i' p' hc
        dsimp only at hc ⊢
        by_cases ht : t' = t
        · rw [if_pos ht] at hc
          cases hc
        · rw [if_neg ht] at hc
          exact h.w t' d' n' i' p' hc
  | recv k =>
    unfold StreamBuf.step
    dsimp only
    cases hr : s.r with
    | copy n t got => exact ⟨s, rfl, h⟩
    | idle =>
      dsimp only
      by_cases h0 : min (StreamBuf.bytes s) k = 0
      · rw [if_pos h0]; exact ⟨s, rfl, h⟩
      · rw [if_neg h0]
        refine ⟨_, rfl, h.head, h.tail, h.w, ?_⟩
        intro n t got hc
        dsimp only at hc ⊢
        injection hc with c1 c2 c3
        subst c1 c2
        have := bytes_lt h
        exact ⟨by omega, h.tail⟩
  | read =>
    unfold StreamBuf.step
    dsimp only
    cases hr : s.r with
    | idle => exact ⟨s, rfl, h⟩
    | copy n t got =>
      obtain ⟨r1, r2⟩ := h.r n t got hr
      dsimp only
      by_cases hi : got.length < n
      · rw [if_pos hi, if_pos (slot_lt r2 r1 hi)]
        refine ⟨_, rfl, h.head, h.tail, h.w, ?_⟩
        intro n' t' got' hc
        dsimp only at hc ⊢
        injection hc with c1 c2 c3
        subst c1 c2
        exact ⟨r1, r2⟩
      · rw [if_neg hi]
        refine ⟨_, rfl, h.head, advance_lt r2 r1, h.w, ?_⟩
        intro n' t' got' hc
        dsimp only at hc
        cases hc

theorem inside_run : ∀ (es : List StreamBuf.Ev) (s : StreamBuf.Sb), Inside s →
    (∀ t d, StreamBuf.Ev.send t d ∈ es → d ≠ []) → ∃ s', StreamBuf.run s es = .ok s'
  | [], s, _, _ => ⟨s, rfl⟩
  | e :: es, s, h, hd => by
    obtain ⟨s1, e1, h1⟩ := inside_step h e (fun t d he => hd t d (he ▸ List.mem_cons_self))
    obtain ⟨s2, e2⟩ := inside_run es s1 h1 (fun t d hm => hd t d (List.mem_cons_of_mem _ hm))
    exact ⟨s2, by rw [StreamBuf.run_cons, e1]; exact e2⟩

theorem run_len : ∀ (es : List StreamBuf.Ev) (s s' : StreamBuf.Sb), StreamBuf.run s es = .ok s' → s'.len = s.len
  | [], s, s', h => by
    simp only [StreamBuf.run, List.foldlM_nil] at h
    injection h with h
    rw [h]
  | e :: es, s, s', h => by
    rw [StreamBuf.run_cons] at h
    cases hst : StreamBuf.step s e with
    | error x => rw [hst] at h; cases h
    | ok s1 =>
      rw [hst] at h
      obtain ⟨-, -, -, -, h4⟩ := access_sim s s.mem e s1 (fun _ _ => rfl) hst
      rw [run_len es s1 s' h, h4]

/-! ## All objects together -/

/-- Each object in the memory is as its lone copy, and as large as the firmware asked. -/
structure Agree (z : Sizes) (P : Obj → Nat) (s : St) (aq : Qi → Queue.Q) (as : Si → StreamBuf.Sb) : Prop where
  qLen : ∀ i, (aq i).length = qLength i ∧ (aq i).size = qSize z i
  sLen : ∀ i, (as i).len = sLength i
  q : ∀ i, s.q i = { aq i with mem := (s.q i).mem }
  sb : ∀ i, s.s i = { as i with mem := (s.s i).mem }
  qMem : ∀ i j, j < qLength i * qSize z i → s.ram (P (.q i) + j) = (aq i).mem j
  sMem : ∀ i j, j < sLength i → s.ram (P (.s i) + j) = (as i).mem j

/-- The firmware asks for no more than it declares: every queue, every stream buffer and every
stack, whatever the sizes of the items. -/
theorem C163_fits (z : Sizes) :
    (∀ i, qLength i * qSize z i ≤ qArray z i) ∧ (∀ i, sLength i ≤ sArray i) ∧ (∀ i, tDepth i ≤ tArray i) := by
  refine ⟨fun i => ?_, fun i => ?_, fun i => ?_⟩ <;> cases i <;> simp [qLength, qSize, qArray, sLength, sArray, tDepth, tArray]

theorem back_other {ram m : Nat → UInt8} {b n a : Nat} (hm : ∀ j, n ≤ j → m j = ram (b + j))
    (ha : a < b ∨ b + n ≤ a) : back ram b m a = ram a := by
  unfold back
  by_cases h : b ≤ a
  · rw [if_pos h, hm _ (by omega)]
    congr 1
    omega
  · rw [if_neg h]

theorem back_in {ram m : Nat → UInt8} {b j : Nat} : back ram b m (b + j) = m j := by
  unfold back
  rw [if_pos (by omega)]
  congr 1
  omega

theorem away {z : Sizes} {P : Obj → Nat} (ha : Apart z P) {o o' : Obj} (h : o ≠ o') {n j : Nat}
    (hn : n ≤ bytes z o) (hj : j < bytes z o') : P o' + j < P o ∨ P o + n ≤ P o' + j := by
  have := ha o o' h
  omega

theorem run_agree (z : Sizes) (P : Obj → Nat) (hA : Apart z P) : ∀ (es : List Ev) (s : St) (aq : Qi → Queue.Q)
    (as : Si → StreamBuf.Sb) (rq : Qi → List Queue.Res) (aq' : Qi → Queue.Q) (as' : Si → StreamBuf.Sb),
    Agree z P s aq as → (∀ a v, Ev.other a v ∈ es → Outside z P a) →
    (∀ i, Queue.run (aq i) (opsOf i es) = .ok (rq i, aq' i)) →
    (∀ i, StreamBuf.run (as i) (accOf i es) = .ok (as' i)) →
    ∃ rs s', run P s es = .ok (rs, s') ∧ Agree z P s' aq' as' ∧ (∀ i, seen i rs = rq i) ∧
      ∀ a, Outside z P a → s'.ram a = lastOther a (s.ram a) es := by
  obtain ⟨fq, fs, -⟩ := C163_fits z
  intro es
  induction es with
  | nil =>
    intro s aq as rq aq' as' hg _ hq hs
    refine ⟨[], s, rfl, ?_, ?_, fun _ _ => rfl⟩
    · have e1 : aq' = aq := by
        funext i
        have := hq i
        simp only [opsOf, Queue.run] at this
        injection this with this
        injection this with _ this
        exact this.symm
      have e2 : as' = as := by
        funext i
        have := hs i
        simp only [accOf, StreamBuf.run, List.foldlM_nil] at this
        injection this with this
        exact this.symm
      rw [e1, e2]
      exact hg
    · intro i
      have := hq i
      simp only [opsOf, Queue.run] at this
      injection this with this
      injection this with this _
  | cons e es ih =>
    intro s aq as rq aq' as' hg ho hq hs
    have ho' : ∀ a v, Ev.other a v ∈ es → Outside z P a := fun a v hm => ho a v (List.mem_cons_of_mem _ hm)
    cases e with
    | queue i op =>
      have hqi := hq i
      simp only [opsOf, if_true] at hqi
      have hop : ∃ r q1 rs1, operate (aq i) op = .ok (r, q1) ∧ Queue.run q1 (opsOf i es) = .ok (rs1, aq' i) ∧
          rq i = r :: rs1 := by
        cases op with
        | send x =>
          simp only [Queue.run] at hqi
          simp only [operate]
          cases hsd : Queue.send (aq i) x with
          | error e => rw [hsd] at hqi; cases hqi
          | ok p =>
            obtain ⟨b, q1⟩ := p
            rw [hsd] at hqi
            dsimp only at hqi ⊢
            cases hrn : Queue.run q1 (opsOf i es) with
            | error e => rw [hrn] at hqi; cases hqi
            | ok p2 =>
              obtain ⟨rs1, q2⟩ := p2
              rw [hrn] at hqi
              dsimp only at hqi
              injection hqi with hqi
              injection hqi with c1 c2
              exact ⟨_, q1, rs1, rfl, by rw [hrn, c2], c1.symm⟩
        | recv =>
          simp only [Queue.run] at hqi
          simp only [operate]
          cases hsd : Queue.recv (aq i) with
          | error e => rw [hsd] at hqi; cases hqi
          | ok p =>
            obtain ⟨b, q1⟩ := p
            rw [hsd] at hqi
            dsimp only at hqi ⊢
            cases hrn : Queue.run q1 (opsOf i es) with
            | error e => rw [hrn] at hqi; cases hqi
            | ok p2 =>
              obtain ⟨rs1, q2⟩ := p2
              rw [hrn] at hqi
              dsimp only at hqi
              injection hqi with hqi
              injection hqi with c1 c2
              exact ⟨_, q1, rs1, rfl, by rw [hrn, c2], c1.symm⟩
      obtain ⟨r, q1, rs1, h1, h2, h3⟩ := hop
      have hN : (aq i).length * (aq i).size = qLength i * qSize z i := by rw [(hg.qLen i).1, (hg.qLen i).2]
      obtain ⟨m', k1, k2, k3, k4, k5⟩ := operate_sim (aq i) (view s.ram (P (.q i))) op r q1
        (fun j hj => hg.qMem i j (hN ▸ hj)) h1
      have hfix : { s.q i with mem := view s.ram (P (.q i)) } = { aq i with mem := view s.ram (P (.q i)) } := by
        rw [hg.q i]
      have hfr : ∀ a, (a < P (.q i) ∨ P (.q i) + qLength i * qSize z i ≤ a) →
          back s.ram (P (.q i)) m' a = s.ram a := fun a ha =>
        back_other (n := qLength i * qSize z i) (fun j hj => k3 j (by rw [hN]; exact hj)) ha
      have hag : Agree z P
          { s with ram := back s.ram (P (.q i)) m', q := fun k => if k = i then { q1 with mem := m' } else s.q k }
          (fun k => if k = i then q1 else aq k) as := by
        refine ⟨?_, hg.sLen, ?_, hg.sb, ?_, ?_⟩
        · intro k
          by_cases hk : k = i
          · subst hk
            rw [if_pos rfl, k4, k5]
            exact hg.qLen k
          · rw [if_neg hk]; exact hg.qLen k
        · intro k
          dsimp only
          by_cases hk : k = i
          · rw [if_pos hk, if_pos hk]
          · rw [if_neg hk, if_neg hk]; exact hg.q k
        · intro k j hj
          dsimp only
          by_cases hk : k = i
          · subst hk
            rw [if_pos rfl, back_in]
            exact k2 j (by rw [hN]; exact hj)
          · rw [if_neg hk, hfr _ (away (o := .q i) (o' := .q k) hA (fun hc => hk (by injection hc with hc; exact hc.symm)) (fq i)
              (Nat.lt_of_lt_of_le hj (fq k)))]
            exact hg.qMem k j hj
        · intro k j hj
          dsimp only
          rw [hfr _ (away (o := .q i) (o' := .s k) hA (nofun) (fq i) (Nat.lt_of_lt_of_le hj (fs k)))]
          exact hg.sMem k j hj
      obtain ⟨rs, s', r1, r2, r3, r4⟩ := ih _ _ as (fun k => if k = i then rs1 else rq k) aq' as' hag ho'
        (fun k => by
          by_cases hk : k = i
          · subst hk; simp only [if_true]; exact h2
          · have := hq k
            simp only [opsOf, if_neg (fun hc => hk (Eq.symm hc) : ¬i = k)] at this
            simp only [if_neg hk]
            exact this)
        (fun k => hs k)
      refine ⟨(i, r) :: rs, s', ?_, r2, ?_, ?_⟩
      · simp only [run, step]
        rw [hfix, k1]
        dsimp only
        rw [r1]
        rfl
      · intro k
        have := r3 k
        by_cases hk : k = i
        · subst hk
          simp only [seen, if_true] at this ⊢
          rw [this, h3]
        · simp only [seen, if_neg (fun hc => hk (Eq.symm hc) : ¬i = k)]
          rw [this, if_neg hk]
      · intro a ha
        rw [r4 a ha]
        show lastOther a (back s.ram (P (.q i)) m' a) es = lastOther a (s.ram a) es
        rw [hfr a (by have h5 := ha (.q i); have h6 := fq i; simp only [bytes] at h5; omega)]
    | stream i e =>
      have hsi := hs i
      simp only [accOf, if_true] at hsi
      rw [StreamBuf.run_cons] at hsi
      have hop : ∃ b1, StreamBuf.step (as i) e = .ok b1 ∧ StreamBuf.run b1 (accOf i es) = .ok (as' i) := by
        cases hst : StreamBuf.step (as i) e with
        | error e => rw [hst] at hsi; cases hsi
        | ok b1 => rw [hst] at hsi; exact ⟨b1, rfl, hsi⟩
      obtain ⟨b1, h1, h2⟩ := hop
      obtain ⟨m', k1, k2, k3, k4⟩ := access_sim (as i) (view s.ram (P (.s i))) e b1
        (fun j hj => hg.sMem i j (hg.sLen i ▸ hj)) h1
      have hfix : { s.s i with mem := view s.ram (P (.s i)) } = { as i with mem := view s.ram (P (.s i)) } := by
        rw [hg.sb i]
      have hfr : ∀ a, (a < P (.s i) ∨ P (.s i) + sLength i ≤ a) →
          back s.ram (P (.s i)) m' a = s.ram a := fun a ha =>
        back_other (n := sLength i) (fun j hj => k3 j (by rw [hg.sLen i]; exact hj)) ha
      have hag : Agree z P
          { s with ram := back s.ram (P (.s i)) m', s := fun k => if k = i then { b1 with mem := m' } else s.s k }
          aq (fun k => if k = i then b1 else as k) := by
        refine ⟨hg.qLen, ?_, hg.q, ?_, ?_, ?_⟩
        · intro k
          by_cases hk : k = i
          · subst hk
            rw [if_pos rfl, k4]
            exact hg.sLen k
          · rw [if_neg hk]; exact hg.sLen k
        · intro k
          dsimp only
          by_cases hk : k = i
          · rw [if_pos hk, if_pos hk]
          · rw [if_neg hk, if_neg hk]; exact hg.sb k
        · intro k j hj
          dsimp only
          rw [hfr _ (away (o := .s i) (o' := .q k) hA (nofun) (fs i) (Nat.lt_of_lt_of_le hj (fq k)))]
          exact hg.qMem k j hj
        · intro k j hj
          dsimp only
          by_cases hk : k = i
          · subst hk
            rw [if_pos rfl, back_in]
            exact k2 j (by rw [hg.sLen k]; exact hj)
          · rw [if_neg hk, hfr _ (away (o := .s i) (o' := .s k) hA (fun hc => hk (by injection hc with hc; exact hc.symm)) (fs i)
              (Nat.lt_of_lt_of_le hj (fs k)))]
            exact hg.sMem k j hj
      obtain ⟨rs, s', r1, r2, r3, r4⟩ := ih _ aq _ rq aq' as' hag ho' (fun k => hq k)
        (fun k => by
          by_cases hk : k = i
          · subst hk; simp only [if_true]; exact h2
          · have := hs k
            simp only [accOf, if_neg (fun hc => hk (Eq.symm hc) : ¬i = k)] at this
            simp only [if_neg hk]
            exact this)
      refine ⟨rs, s', ?_, r2, r3, ?_⟩
      · simp only [run, step]
        rw [hfix, k1]
        dsimp only
        rw [r1]
        rfl
      · intro a ha
        rw [r4 a ha]
        show lastOther a (back s.ram (P (.s i)) m' a) es = lastOther a (s.ram a) es
        rw [hfr a (by have h5 := ha (.s i); have h6 := fs i; simp only [bytes] at h5; omega)]
    | other a v =>
      have hout := ho a v List.mem_cons_self
      have hag : Agree z P { s with ram := fun x => if x = a then v else s.ram x } aq as := by
        refine ⟨hg.qLen, hg.sLen, hg.q, hg.sb, ?_, ?_⟩
        · intro k j hj
          have h5 := hout (.q k)
          have h6 := fq k
          simp only [bytes] at h5
          show (if P (.q k) + j = a then v else s.ram (P (.q k) + j)) = _
          rw [if_neg (by omega)]
          exact hg.qMem k j hj
        · intro k j hj
          have h5 := hout (.s k)
          have h6 := fs k
          simp only [bytes] at h5
          show (if P (.s k) + j = a then v else s.ram (P (.s k) + j)) = _
          rw [if_neg (by omega)]
          exact hg.sMem k j hj
      obtain ⟨rs, s', r1, r2, r3, r4⟩ := ih _ aq as rq aq' as' hag ho' (fun k => hq k) (fun k => hs k)
      refine ⟨rs, s', ?_, r2, r3, ?_⟩
      · simp only [run, step]
        rw [r1]
        rfl
      · intro b hb
        rw [r4 b hb]
        show lastOther b (if b = a then v else s.ram b) es = lastOther b (if a = b then v else s.ram b) es
        by_cases hab : b = a
        · rw [if_pos hab, if_pos hab.symm]
        · rw [if_neg hab, if_neg (fun hc => hab hc.symm)]

theorem ops_mem {i : Qi} {op : Queue.Op} : ∀ {es : List Ev}, op ∈ opsOf i es → Ev.queue i op ∈ es
  | [], h => by cases h
  | e :: es, h => by
    cases e with
    | queue k o =>
      simp only [opsOf] at h
      by_cases hk : k = i
      · subst hk
        rw [if_pos rfl] at h
        rcases List.mem_cons.mp h with h | h
        · rw [h]; exact List.mem_cons_self
        · exact List.mem_cons_of_mem _ (ops_mem h)
      · rw [if_neg hk] at h
        exact List.mem_cons_of_mem _ (ops_mem h)
    | stream k o => exact List.mem_cons_of_mem _ (ops_mem h)
    | other a v => exact List.mem_cons_of_mem _ (ops_mem h)

theorem acc_mem {i : Si} {e : StreamBuf.Ev} : ∀ {es : List Ev}, e ∈ accOf i es → Ev.stream i e ∈ es
  | [], h => by cases h
  | e' :: es, h => by
    cases e' with
    | stream k o =>
      simp only [accOf] at h
      by_cases hk : k = i
      · subst hk
        rw [if_pos rfl] at h
        rcases List.mem_cons.mp h with h | h
        · rw [h]; exact List.mem_cons_self
        · exact List.mem_cons_of_mem _ (acc_mem h)
      · rw [if_neg hk] at h
        exact List.mem_cons_of_mem _ (acc_mem h)
    | queue k o => exact List.mem_cons_of_mem _ (acc_mem h)
    | other a v => exact List.mem_cons_of_mem _ (acc_mem h)

/-- **C163.** Wherever the linker puts the arrays the firmware declares, as long as they do not
overlap, and whatever the memory holds at the start: in every history of operations on all queues
and stream buffers, in any order and with any number of senders inside a stream buffer at once, with
any other code writing its own variables in between, nothing is accessed outside the arrays; every
queue answers as a bounded list used by nobody else; every stream buffer goes through exactly the
states it would go through alone; and every byte outside the arrays holds what other code wrote there
last. -/
theorem C163_alone (z : Sizes) (hz : 0 < z.frame ∧ 0 < z.pending ∧ 0 < z.spi) (P : Obj → Nat) (hA : Apart z P)
    (ram : Nat → UInt8) (es : List Ev) (hp : ∀ e, e ∈ es → Proper z P e) :
    ∃ rs s', run P (start z P ram) es = .ok (rs, s') ∧
      (∀ i, seen i rs = Queue.fifo (qLength i) [] (opsOf i es)) ∧
      (∀ i, ∃ b, StreamBuf.run (StreamBuf.create (sLength i) (view ram (P (.s i)))) (accOf i es) = .ok b ∧
        s'.s i = { b with mem := (s'.s i).mem } ∧ ∀ j, j < sLength i → s'.ram (P (.s i) + j) = b.mem j) ∧
      ∀ a, Outside z P a → s'.ram a = lastOther a (ram a) es := by
  have hq : ∀ i, ∃ q, Queue.run (Queue.create (qLength i) (qSize z i) (view ram (P (.q i)))) (opsOf i es) =
      .ok (Queue.fifo (qLength i) [] (opsOf i es), q) := fun i =>
    Queue.C100_fifo _ _ (by cases i <;> simp [qLength]) (by cases i <;> simp only [qSize] <;> omega) _ _
      (fun x hx => hp _ (ops_mem hx))
  have hs : ∀ i, ∃ b, StreamBuf.run (StreamBuf.create (sLength i) (view ram (P (.s i)))) (accOf i es) = .ok b :=
    fun i => by
      have hl : 0 < sLength i := by cases i <;> simp [sLength]
      refine inside_run _ _ ⟨hl, hl, ?_, ?_⟩ (fun t d hm => hp _ (acc_mem hm))
      · intro t d n i' h hc; cases hc
      · intro n t got hc; cases hc
  choose aq' haq using hq
  choose as' has using hs
  have hg : Agree z P (start z P ram) (fun i => Queue.create (qLength i) (qSize z i) (view ram (P (.q i))))
      (fun i => StreamBuf.create (sLength i) (view ram (P (.s i)))) :=
    ⟨fun _ => ⟨rfl, rfl⟩, fun _ => rfl, fun _ => rfl, fun _ => rfl, fun _ _ _ => rfl, fun _ _ _ => rfl⟩
  obtain ⟨rs, s', r1, r2, r3, r4⟩ := run_agree z P hA es _ _ _ _ aq' as' hg
    (fun a v hm => hp _ hm) haq has
  exact ⟨rs, s', r1, r3, fun i => ⟨as' i, has i, r2.sb i, fun j hj => r2.sMem i j hj⟩, r4⟩

/-- So a stream buffer whose sends do not overlap delivers what was sent to it, in order, whatever
happens at the other objects. -/
theorem C163_streams (z : Sizes) (hz : 0 < z.frame ∧ 0 < z.pending ∧ 0 < z.spi) (P : Obj → Nat) (hA : Apart z P)
    (ram : Nat → UInt8) (es : List Ev) (hp : ∀ e, e ∈ es → Proper z P e) (i : Si)
    (hx : StreamBuf.Excl (StreamBuf.create (sLength i) (view ram (P (.s i)))) (accOf i es)) :
    ∃ rs s' rest, run P (start z P ram) es = .ok (rs, s') ∧ (s'.s i).sent = (s'.s i).got ++ rest ∧
      rest.length < sLength i := by
  obtain ⟨rs, s', h1, -, h3, -⟩ := C163_alone z hz P hA ram es hp
  obtain ⟨b, b1, b2, -⟩ := h3 i
  have hl : 0 < sLength i := by cases i <;> simp [sLength]
  obtain ⟨c1, c2, c3, -⟩ := StreamBuf.C98_fifo _ _ hl _ hx b b1
  have hin := StreamBuf.run_inv _ _ b (StreamBuf.create_inv _ _ hl) hx b1
  have hlen : b.len = sLength i := run_len _ _ _ b1
  refine ⟨rs, s', StreamBuf.content b, h1, ?_, ?_⟩
  · rw [b2]; exact c1
  · rw [c2]
    have := hin.pos
    omega

/-- A new task's first frame is written inside the stack the firmware declared for it and its control
block, wherever the stack lies; nothing else changes. -/
theorem C163_stacks (L : Context.Layout) (number : Ti → Nat) (hL : ∀ i, L.hi (number i) = L.lo (number i) + tDepth i)
    (i : Ti) (m : Nat → Nat) (code arg ret a : Nat)
    (ha : a < L.lo (number i) ∨ L.lo (number i) + tArray i ≤ a) (ht : a ≠ L.tcb (number i)) :
    Context.initStack L m (number i) code arg ret a = m a := by
  have hf := (C163_fits ⟨0, 0, 0⟩).2.2 i
  have hd : 18 < tDepth i := by cases i <;> simp [tDepth]
  have hh := hL i
  refine Context.initStack_other L m _ code arg ret a (by omega) ?_
  rintro (h | h)
  · omega
  · exact ht h

/-! ## Examples -/

/-- Arrays placed one directly behind the other, with items of 20, 32 and 1 bytes. -/
def packed : Obj → Nat
  | .q .bms => 0
  | .q .inverter => 5120
  | .q .spi => 10240
  | .q (.canTx k) => 10250 + 2048 * k.val
  | .s (.uartTx k) => 16394 + 512 * k.val
  | .s .wheelspeed => 19466
  | .s .gps => 23466
  | .s .pcLog => 25514
  | .s .pcRecv => 27562

theorem packed_apart : Apart ⟨20, 32, 1⟩ packed := by
  intro o o' h
  rcases o with i | i <;> rcases o' with k | k <;> cases i <;> cases k <;>
    first
    | exact absurd rfl h
    | (simp only [packed, bytes, qArray, sArray]; omega)
    | (simp only [packed, bytes, qArray, sArray]
       rename_i a b
       have : a.val ≠ b.val := fun hc => h (by rw [Fin.ext hc])
       omega)

/-- Two neighbouring queues and a stream buffer used in turn, and a byte behind everything. -/
example : ∃ rs s', run packed (start ⟨20, 32, 1⟩ packed fun _ => 7)
      [.queue .spi (.send [1]), .queue (.canTx 0) (.send (List.replicate 32 9)), .other 30000 5,
        .stream .gps (.send 0 [3, 4]), .queue .spi (.send [2]), .stream .gps (.write 0), .queue (.canTx 0) .recv,
        .queue .spi .recv] = .ok (rs, s') ∧
    seen .spi rs = [.sent true, .sent true, .got (some [1])] ∧
    seen (.canTx 0) rs = [.sent true, .got (some (List.replicate 32 9))] ∧ s'.ram 30000 = 5 ∧ s'.ram 23466 = 3 := by
  obtain ⟨rs, s', h1, h2, h3, h4⟩ := C163_alone ⟨20, 32, 1⟩ (by decide) packed packed_apart (fun _ => 7)
      [.queue .spi (.send [1]), .queue (.canTx 0) (.send (List.replicate 32 9)), .other 30000 5,
        .stream .gps (.send 0 [3, 4]), .queue .spi (.send [2]), .stream .gps (.write 0), .queue (.canTx 0) .recv,
        .queue .spi .recv]
      (by
        intro e he
        simp only [List.mem_cons, List.not_mem_nil, or_false] at he
        rcases he with rfl | rfl | rfl | rfl | rfl | rfl | rfl | rfl <;> try (simp [Proper, qSize]; done)
        intro o
        rcases o with i | i <;> cases i <;> simp only [packed, bytes, qArray, sArray] <;> omega)
  refine ⟨rs, s', h1, by rw [h2]; decide, by rw [h2]; decide, ?_, ?_⟩
  · rw [h4 30000 (by intro o; rcases o with i | i <;> cases i <;> simp only [packed, bytes, qArray, sArray] <;> omega)]
    rfl
  · obtain ⟨b, b1, -, b3⟩ := h3 .gps
    have := b3 0 (by decide)
    simp only [packed, Nat.add_zero] at this
    rw [this]
    simp only [accOf] at b1
    injection b1 with b1
    rw [← b1]
    rfl

end Verif.Memory
