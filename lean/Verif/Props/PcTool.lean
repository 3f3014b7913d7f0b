import Verif.Proofs.PcTool
import Verif.Props.LogStream
import Verif.Props.Telemetry

set_option autoImplicit false

/-!
# C83-C88: the PC tool
-/

namespace Verif.PcTool
open Crc FrameSpec PcSpec

/-! ## C83: the decoder, whatever the sizes of the reads -/

/-- C83: whatever the sizes of the reads, a decoder finds exactly the messages of the
greedy left-to-right parse of the received bytes by delimiters; it hands to its handler
those with its address and type, in order, with their payload and a flag that is set
iff the checksum is right. -/
theorem C83_parse (c : Cfg) (hL : 11 ≤ c.len) (chunks : List (List UInt8)) :
    ∃ ms r, Parse (Delim c.len) c.len chunks.flatten ms r ∧
      List.Forall₂ (fun m (d : Msg) => d.payload = payload m ∧ d.addr = addr m ∧ d.msgType = func m ∧
          (d.crcCorrect = true ↔ Valid hal c.len m))
        (ms.filter fun m => addr m = c.selfAddr ∧ func m = c.type) (delivered c chunks) := by
  obtain ⟨ms, r, h1, h2⟩ := receive_parse c.len hL chunks [] [] rfl (by simp; omega)
  refine ⟨ms, r, by simpa using h1, ?_⟩
  have hlen : ∀ m ∈ ms, m.length = c.len := by
    have : ∀ {l ms r}, Parse (Delim c.len) c.len l ms r → ∀ m ∈ ms, m.length = c.len := by
      intro l ms r h
      induction h with
      | done _ => simp
      | hit h1 _ _ ih =>
        intro m hm
        rcases List.mem_cons.mp hm with rfl | hm
        · rw [List.length_take]; omega
        · exact ih m hm
      | skip _ _ _ ih => exact ih
    exact this h1
  unfold delivered
  clear h1
  generalize (receive c.len [] chunks).1 = ds at h2
  induction h2 with
  | nil => exact .nil
  | @cons m d ms ds hv _ ih =>
    obtain ⟨-, v1, v2, v3, v4⟩ := hv
    have ih' := ih (fun m hm => hlen m (by simp [hm]))
    rw [hlen m (by simp)] at v4
    have hk : handled c d = decide (addr m = c.selfAddr ∧ func m = c.type) := by
      unfold handled
      rw [v2, v3]
    by_cases h : addr m = c.selfAddr ∧ func m = c.type
    · rw [List.filter_cons_of_pos (by simpa using h), List.filter_cons_of_pos (by rw [hk]; simpa using h)]
      exact .cons ⟨v1, v2, v3, v4⟩ ih'
    · rw [List.filter_cons_of_neg (by simpa using h), List.filter_cons_of_neg (by rw [hk]; simpa using h)]
      exact ih'

/-- C83: the sizes of the reads do not matter. -/
theorem C83_chunks (c : Cfg) (hL : 11 ≤ c.len) (chunks chunks' : List (List UInt8))
    (h : chunks.flatten = chunks'.flatten) : delivered c chunks = delivered c chunks' := by
  obtain ⟨ms, r, h1, h2⟩ := receive_parse c.len hL chunks [] [] rfl (by simp; omega)
  obtain ⟨ms', r', h1', h2'⟩ := receive_parse c.len hL chunks' [] [] rfl (by simp; omega)
  rw [h] at h1
  obtain ⟨rfl, rfl⟩ := Parse.det h1 h1'
  unfold delivered
  congr 1
  generalize (receive c.len [] chunks).1 = a at h2
  generalize (receive c.len [] chunks').1 = b at h2'
  clear h1 h1'
  induction h2 generalizing b with
  | nil => cases h2'; rfl
  | cons x _ ih =>
    cases h2' with
    | cons y hy =>
      have := x.1.symm.trans y.1
      injection this with this
      rw [this, ih _ hy]

/-! ## C84: everything the VCU sends is shown -/

/-- A log frame for the PC. -/
def LogFrame (m : List UInt8) : Prop := Valid hal 43 m ∧ m.take 5 = [0x3A, 0x00, 0x02, 0x00, 0x02]

/-- A state frame for the PC. -/
def StateFrame (m : List UInt8) : Prop := Valid hal 18 m ∧ m.take 5 = [0x3A, 0x00, 0x02, 0x00, 0x01]

/-- C84: the tool shows every log frame and every state frame, and nothing else. -/
def Shows (fs : List (List UInt8)) : Prop :=
  ∀ chunks : List (List UInt8), chunks.flatten = fs.flatten →
    (delivered logCfg chunks).map showLog = (fs.filter (·.length = 43)).map (fun m => (payload m, false)) ∧
    List.Forall₂ (fun m (d : Msg) => d.payload = payload m ∧ d.crcCorrect = true)
      (fs.filter (·.length = 18)) (delivered stateCfg chunks)

theorem delim_of_valid {L : Nat} {m : List UInt8} (h : Valid hal L m) : Delim L m := ⟨h.len, h.colon, h.cr, h.lf⟩

theorem header_of_take {m : List UInt8} {a b c d : UInt8} (h : m.take 5 = [0x3A, a, b, c, d]) :
    addr m = a.toNat * 256 + b.toNat ∧ func m = c.toNat * 256 + d.toNat := by
  have g : ∀ i, i < 5 → m.getD i 0 = ([0x3A, a, b, c, d] : List UInt8).getD i 0 := by
    intro i hi
    rw [← h, List.getD_eq_getElem?_getD, List.getD_eq_getElem?_getD, List.getElem?_take_of_lt hi]
  unfold addr func
  rw [g 1 (by omega), g 2 (by omega), g 3 (by omega), g 4 (by omega)]
  exact ⟨rfl, rfl⟩

theorem getD_of_eq {m : List UInt8} {i : Nat} {x : UInt8} (h : m[i]? = some x) : m.getD i 0 = x := by
  rw [List.getD_eq_getElem?_getD, h]
  rfl

theorem split5 (w : List UInt8) (h : 5 ≤ w.length) : ∃ a b c d e l, w = a :: b :: c :: d :: e :: l := by
  match w, h with
  | a :: b :: c :: d :: e :: l, _ => exact ⟨a, b, c, d, e, l, rfl⟩

/-- C84 (part): it does if CR LF occurs in the frames only at their ends, no log text has
":" NUL 02 NUL 01 at its position 20, and no state frame whose last value byte is ':' has
the checksum 00020002. -/
theorem C84_shows_partial (fs : List (List UInt8)) (hf : ∀ f ∈ fs, LogFrame f ∨ StateFrame f)
    (honly : ∀ f ∈ fs, OnlyAtEnd f)
    (hlog : ∀ f ∈ fs, f.length = 43 → (f.drop 25).take 5 ≠ [0x3A, 0x00, 0x02, 0x00, 0x01])
    (hstate : ∀ f ∈ fs, f.length = 18 → (f.drop 11).take 5 ≠ [0x3A, 0x00, 0x02, 0x00, 0x02]) : Shows fs := by
  intro chunks hch
  have hok : ∀ f ∈ fs, Ok f := by
    intro f hm
    rcases hf f hm with h | h
    · have := delim_of_valid h.1
      rw [← this.len] at this
      exact ⟨.inr h.1.len, this, honly f hm⟩
    · have := delim_of_valid h.1
      rw [← this.len] at this
      exact ⟨.inl h.1.len, this, honly f hm⟩
  have hkind43 : ∀ f ∈ fs, f.length = 43 → LogFrame f := by
    intro f hm hl
    rcases hf f hm with h | h
    · exact h
    · have := h.1.len; omega
  have hkind18 : ∀ f ∈ fs, f.length = 18 → StateFrame f := by
    intro f hm hl
    rcases hf f hm with h | h
    · have := h.1.len; omega
    · exact h
  -- a window rejected by its header
  have hrej : ∀ (w : List UInt8) (t : UInt8), w[0]? = some 0x3A → 5 ≤ w.length → w.take 5 ≠ [0x3A, 0x00, 0x02, 0x00, t] →
      ¬ (addr w = 2 ∧ func w = t.toNat) := by
    intro w t h0 hl hne ⟨h1, h2⟩
    apply hne
    obtain ⟨w0, w1, w2, w3, w4, w', rfl⟩ := split5 w hl
    · simp only [List.getElem?_cons_zero] at h0
      injection h0 with h0
      have e1 : w1.toNat * 256 + w2.toNat = 2 := h1
      have e2 : w3.toNat * 256 + w4.toNat = t.toNat := h2
      have b2 := w2.toNat_lt; have b4 := w4.toNat_lt; have bt := t.toNat_lt
      have f1 : w1 = 0 := UInt8.toNat_inj.mp (by show w1.toNat = 0; omega)
      have f2 : w2 = 2 := UInt8.toNat_inj.mp (by show w2.toNat = 2; omega)
      have f3 : w3 = 0 := UInt8.toNat_inj.mp (by show w3.toNat = 0; omega)
      have f4 : w4 = t := UInt8.toNat_inj.mp (by omega)
      rw [h0, f1, f2, f3, f4]
      rfl
  have hdummy : Ok ([0x3A, 0, 0, 0, 0, 0, 0, 0, 0, 0, 0, 0, 0, 0, 0, 0, 0x0D, 0x0A] : List UInt8) := by
    refine ⟨.inl rfl, ⟨rfl, rfl, rfl, rfl⟩, ?_⟩
    intro i h1 h2
    by_cases hi : i < 18
    · interval_cases i <;> simp_all
    · rw [List.getElem?_eq_none (by simp; omega)] at h1
      simp at h1
  have hok' : ∀ f ∈ ([0x3A, 0, 0, 0, 0, 0, 0, 0, 0, 0, 0, 0, 0, 0, 0, 0, 0x0D, 0x0A] : List UInt8) :: fs, Ok f := by
    intro f hm
    rcases List.mem_cons.mp hm with rfl | hm
    · exact hdummy
    · exact hok f hm
  constructor
  · obtain ⟨ms, r, h1, h2⟩ := C83_parse logCfg (by decide) chunks
    rw [hch] at h1
    have hm := mixed 43 (.inr rfl) (fun m => decide (addr m = 2 ∧ func m = 2)) h1 fs _ 18 rfl (by omega) hdummy
      (.inr rfl) hok' (fun f hm hl => by
        have := header_of_take (hkind43 f hm hl).2
        simpa using this) (by intro h; omega) (by
        intro _ f hm hl hc x
        rcases List.mem_cons.mp hm with rfl | hm
        · simp at hc
        · have hd5 : 5 ≤ (f.drop 11).length := by rw [List.length_drop]; omega
          have := hrej (f.drop 11 ++ x) 2 (by
            rw [List.getElem?_append_left (by omega), List.getElem?_drop]; exact hc)
            (by rw [List.length_append]; omega) (by
              rw [List.take_append_of_le_length hd5]
              exact hstate f hm hl)
          simpa using this)
    rw [show logCfg.selfAddr = 2 from rfl, show logCfg.type = 2 from rfl, hm] at h2
    have hall : ∀ f ∈ fs.filter (·.length = 43), Valid hal 43 f := by
      intro f hm
      rw [List.mem_filter] at hm
      exact (hkind43 f hm.1 (by simpa using hm.2)).1
    clear hm h1
    generalize delivered logCfg chunks = ds at h2
    generalize fs.filter (·.length = 43) = gs at h2 hall
    induction h2 with
    | nil => rfl
    | @cons m d gs ds hv _ ih =>
      rw [List.map_cons, List.map_cons, ih (fun f hm => hall f (by simp [hm]))]
      congr 1
      unfold showLog
      rw [hv.1, (hv.2.2.2).mpr (hall m (by simp))]
      rfl
  · obtain ⟨ms, r, h1, h2⟩ := C83_parse stateCfg (by decide) chunks
    rw [hch] at h1
    have hm := mixed 18 (.inl rfl) (fun m => decide (addr m = 2 ∧ func m = 1)) h1 fs _ 18 rfl (by omega) hdummy
      (.inr rfl) hok' (fun f hm hl => by
        have := header_of_take (hkind18 f hm hl).2
        simpa using this) (by
        intro _ f hm hl hc
        rcases List.mem_cons.mp hm with rfl | hm
        · simp at hl
        · have hd5 : 5 ≤ (f.drop 25).length := by rw [List.length_drop]; omega
          have := hrej (f.drop 25) 1 (by rw [List.getElem?_drop]; exact hc) hd5 (hlog f hm hl)
          simpa using this) (by intro h; omega)
    rw [show stateCfg.selfAddr = 2 from rfl, show stateCfg.type = 1 from rfl, hm] at h2
    have hall : ∀ f ∈ fs.filter (·.length = 18), Valid hal 18 f := by
      intro f hm
      rw [List.mem_filter] at hm
      exact (hkind18 f hm.1 (by simpa using hm.2)).1
    clear hm h1
    generalize delivered stateCfg chunks = ds at h2
    generalize fs.filter (·.length = 18) = gs at h2 hall
    induction h2 with
    | nil => exact .nil
    | @cons m d gs ds hv _ ih =>
      exact .cons ⟨hv.1, (hv.2.2.2).mpr (hall m (by simp))⟩ (ih (fun f hm => hall f (by simp [hm])))

theorem aligned (L : Nat) (hL : 11 ≤ L) (fs : List (List UInt8)) (hf : ∀ f ∈ fs, Delim L f) :
    Parse (Delim L) L fs.flatten fs [] := by
  induction fs with
  | nil => exact .done (by simp; omega)
  | cons f fs ih =>
    have hd := hf f (by simp)
    have h1 : (f :: fs).flatten.take L = f := by rw [List.flatten_cons, List.take_left' hd.len]
    have h2 : (f :: fs).flatten.drop L = fs.flatten := by rw [List.flatten_cons, List.drop_left' hd.len]
    have := Parse.hit (V := Delim L) (L := L) (l := (f :: fs).flatten) (ms := fs) (r := [])
      (by rw [List.flatten_cons, List.length_append, hd.len]; omega) (by rw [h1]; exact hd)
      (by rw [h2]; exact ih (fun g hg => hf g (by simp [hg])))
    rw [h1] at this
    exact this

/-- C84 (part): a stream of log frames alone is shown completely and without colour,
whatever the text. -/
theorem C84_logs_alone_partial (fs : List (List UInt8)) (hf : ∀ f ∈ fs, LogFrame f) (chunks : List (List UInt8))
    (hch : chunks.flatten = fs.flatten) :
    (delivered logCfg chunks).map showLog = fs.map (fun m => (payload m, false)) := by
  obtain ⟨ms, r, h1, h2⟩ := C83_parse logCfg (by decide) chunks
  rw [hch] at h1
  obtain ⟨rfl, rfl⟩ := Parse.det h1 (aligned 43 (by omega) fs (fun f hm => delim_of_valid (hf f hm).1))
  have hk : ms.filter (fun m => decide (addr m = logCfg.selfAddr ∧ func m = logCfg.type)) = ms := by
    rw [List.filter_eq_self]
    intro f hm
    have := header_of_take (hf f hm).2
    rw [show logCfg.selfAddr = 2 from rfl, show logCfg.type = 2 from rfl]
    simpa using this
  rw [hk] at h2
  clear h1 hk hch
  generalize delivered logCfg chunks = ds at h2
  induction h2 with
  | nil => rfl
  | @cons m d gs ds hv _ ih =>
    rw [List.map_cons, List.map_cons, ih (fun f hm => hf f (by simp [hm]))]
    congr 1
    unfold showLog
    rw [hv.1, (hv.2.2.2).mpr (hf m (by simp)).1]
    rfl

/-- A log frame whose last character is a colon. -/
def badLog : List UInt8 := [0x3A, 0, 2, 0, 2] ++ List.replicate 31 0x20 ++ [0x3A, 7, 63, 250, 166, 0x0D, 0x0A]

/-- A state frame: highest cell voltage, with CR LF in the middle of the value. -/
def badState : List UInt8 := [0x3A, 0, 2, 0, 1, 0, 3, 4, 0x3F, 0x0D, 0x0A, 0, 248, 209, 89, 207, 0x0D, 0x0A]

/-- C84 fails in general: after a log frame that ends in a colon, a state frame with CR LF
in its value is lost. -/
theorem C84_not : ¬ ∀ fs : List (List UInt8), (∀ f ∈ fs, LogFrame f ∨ StateFrame f) → Shows fs := by
  intro h
  have h1 : LogFrame badLog := ⟨⟨rfl, rfl, rfl, rfl, by decide +kernel⟩, rfl⟩
  have h2 : StateFrame badState := ⟨⟨rfl, rfl, rfl, rfl, by decide +kernel⟩, rfl⟩
  have h3 := (h [badLog, badState] (by
    intro f hf
    rcases List.mem_cons.mp hf with rfl | hf
    · exact .inl h1
    · rw [List.mem_singleton] at hf; subst hf; exact .inr h2) [badLog, badState] rfl).2
  have h4 : delivered stateCfg [badLog, badState] = [] := by decide +kernel
  rw [h4] at h3
  exact absurd h3.length_eq (by decide)

/-- The same state frame alone is shown; the partial theorem is not about nothing. -/
example : (delivered stateCfg [badState.take 7, badState.drop 7]).map showState =
    [.update "BMS Max cell voltage" 0x3F0D0A00] := by decide +kernel

/-- A mixed stream read in pieces of ten bytes and five: both decoders show what was sent. -/
example :
    let log : List UInt8 := [0x3A, 0, 2, 0, 2, 72, 105, 10] ++ List.replicate 29 0 ++ [140, 212, 7, 187, 0x0D, 0x0A]
    let st : List UInt8 := [0x3A, 0, 2, 0, 1, 0, 11, 1, 0, 0, 0, 7, 15, 164, 182, 88, 0x0D, 0x0A]
    let l := st ++ log ++ st
    let chunks := [l.take 10, (l.drop 10).take 5, l.drop 15]
    (delivered logCfg chunks).map showLog = [([72, 105, 10] ++ List.replicate 29 0, false)] ∧
      (delivered stateCfg chunks).map showState = [.update "BMS Fault" 7, .update "BMS Fault" 7] := by
  decide +kernel

/-! ## C85: log text end to end -/

/-- C85 (part): for every history of the VCU's log (that the VCU survives, see
`C99_returns_iff`), the tool prints, NUL characters
aside, exactly the text accepted so far except what is still in the VCU's stream, and
never in the colour of failures; the frames may be mixed with state frames in any order,
under the condition of `C84_shows_partial` on CR LF and the state frames' checksums. -/
theorem C85_log_text_partial (evs : List LogStream.Ev) (he : ∀ e ∈ evs, LogStream.CString e)
    (s : LogStream.Sys) (h1 : LogStream.Sys.start.run (fun m => some (hal m)) evs = .ok s) :
      ∀ fs : List (List UInt8), (fs.filter (·.length = 43)).map some = s.frames →
        (∀ f ∈ fs, f.length ≠ 43 → StateFrame f ∧ (f.drop 11).take 5 ≠ [0x3A, 0x00, 0x02, 0x00, 0x02]) →
        (∀ f ∈ fs, OnlyAtEnd f) → ∀ chunks : List (List UInt8), chunks.flatten = fs.flatten →
          s.log.accepted =
            ((delivered logCfg chunks).map showLog).flatMap (fun x => x.1.filter (· ≠ 0)) ++ s.log.stream ∧
          ∀ x ∈ (delivered logCfg chunks).map showLog, x.2 = false := by
  have h2 := LogStream.run_inv hal evs LogStream.Sys.start s
    ⟨by simp [LogStream.Sys.start], by simp [LogStream.Sys.start], rfl, by simp [LogStream.Sys.start]⟩ he h1
  intro fs hfs hother honly chunks hch
  have hlog : ∀ f ∈ fs, f.length = 43 → LogFrame f ∧
      (f.drop 5).take 32 = LogStream.text f ++ List.replicate (32 - (LogStream.text f).length) 0 := by
    intro f hm hl
    have hin : some f ∈ s.frames := by
      rw [← hfs]
      exact List.mem_map_of_mem (List.mem_filter.mpr ⟨hm, by simpa using hl⟩)
    obtain ⟨fr, e1, e2, e3⟩ := h2.valid _ hin
    injection e1 with e1
    subst e1
    exact ⟨⟨e2, e3⟩, h2.padded _ hin⟩
  have hsh := C84_shows_partial fs (by
      intro f hm
      by_cases hl : f.length = 43
      · exact .inl (hlog f hm hl).1
      · exact .inr (hother f hm hl).1) honly (by
      intro f hm hl hc
      obtain ⟨-, hp⟩ := hlog f hm hl
      have hg : ∀ i, i < 32 → (LogStream.text f ++ List.replicate (32 - (LogStream.text f).length) 0)[i]? = f[5 + i]? := by
        intro i hi
        rw [← hp, List.getElem?_take_of_lt hi, List.getElem?_drop]
      have hb : ∀ i, i < 5 → f[25 + i]? = ([0x3A, 0x00, 0x02, 0x00, 0x01] : List UInt8)[i]? := by
        intro i hi
        rw [← hc, List.getElem?_take_of_lt hi, List.getElem?_drop]
      have h21 := hg 21 (by omega)
      rw [show 5 + 21 = 25 + 1 from rfl, hb 1 (by omega)] at h21
      have h22 := hg 22 (by omega)
      rw [show 5 + 22 = 25 + 2 from rfl, hb 2 (by omega)] at h22
      have hnz : ∀ c ∈ LogStream.text f, c ≠ 0 := by
        intro c hc
        have := List.all_eq_true.mp List.all_takeWhile c hc
        simpa using this
      by_cases hlt : 21 < (LogStream.text f).length
      · rw [List.getElem?_append_left hlt] at h21
        exact hnz _ (List.mem_of_getElem? h21) rfl
      · rw [List.getElem?_append_right (by omega)] at h22
        have := List.mem_of_getElem? h22
        rw [List.mem_replicate] at this
        exact absurd this.2 (by decide)) (by
      intro f hm hl
      exact (hother f hm (by omega)).2) chunks hch
  rw [hsh.1]
  refine ⟨?_, ?_⟩
  · rw [h2.text, ← hfs]
    congr 1
    rw [List.flatMap_map, List.flatMap_map]
    apply List.flatMap_congr
    intro f hm
    rw [List.mem_filter] at hm
    obtain ⟨-, hp⟩ := hlog f hm.1 (by simpa using hm.2)
    have hl : f.length = 43 := by simpa using hm.2
    dsimp only
    unfold payload
    have hz : (List.replicate (32 - (LogStream.text f).length) (0 : UInt8)).filter (· ≠ 0) = [] := by
      rw [List.filter_eq_nil_iff]
      intro c hc
      rw [List.mem_replicate] at hc
      simp [hc.2]
    rw [hl, hp, List.filter_append, hz, List.append_nil, List.filter_eq_self.mpr]
    · rfl
    · intro c hc
      exact List.all_eq_true.mp List.all_takeWhile c hc
  · intro x hx
    rw [List.mem_map] at hx
    obtain ⟨f, -, rfl⟩ := hx
    rfl

/-! ## C86: vehicle state end to end -/

theorem value_loop (p : List UInt8) (hp : p.length = 7) (n k v : Nat) (hk : k + n ≤ 7) (hv : v < 256 ^ k) :
    valueLoop p (List.range' k n) v =
      some (v + ((List.range' k n).map fun i => (p.getD (6 - i) 0).toNat * 256 ^ i).sum) := by
  induction n generalizing k v with
  | zero => simp [valueLoop]
  | succ n ih =>
    rw [List.range'_succ]
    unfold valueLoop
    have hat : payloadAt p k = some (p.getD (6 - k) 0) := by
      unfold payloadAt
      rw [if_pos (by omega), List.getD_eq_getElem?_getD, List.getElem?_eq_getElem (by omega)]
      rfl
    rw [hat]
    dsimp only
    have hb := (p.getD (6 - k) 0).toNat_lt
    have hor : v ||| ((p.getD (6 - k) 0).toNat <<< (k * 8)) = v + (p.getD (6 - k) 0).toNat * 256 ^ k := by
      rw [Nat.or_comm, ← Nat.shiftLeft_add_eq_or_of_lt, Nat.shiftLeft_eq, Nat.add_comm]
      · congr 2
        rw [Nat.mul_comm, Nat.pow_mul]
      · rw [Nat.mul_comm, Nat.pow_mul]
        exact hv
    rw [hor, ih (k + 1) _ (by omega)]
    · rw [List.map_cons, List.sum_cons]
      congr 1
      omega
    · rw [Nat.pow_succ]
      have : (p.getD (6 - k) 0).toNat * 256 ^ k ≤ 255 * 256 ^ k := Nat.mul_le_mul_right _ (by omega)
      omega

theorem showState_reads (m : List UInt8) (d : Msg) (hm : m.length = 18) (hd : d.payload = payload m)
    (hc : d.crcCorrect = true) (hs : TelemetrySpec.fieldSize m ≤ 7) (name : String)
    (hn : fieldName (TelemetrySpec.fieldId m) = some name) :
    showState d = .update name (TelemetrySpec.fieldValue m) := by
  have hpl : (payload m).length = 7 := by unfold payload; rw [List.length_take, List.length_drop]; omega
  have hg : ∀ i, i < 7 → (payload m).getD i 0 = m.getD (5 + i) 0 := by
    intro i hi
    unfold payload
    rw [hm, List.getD_eq_getElem?_getD, List.getD_eq_getElem?_getD, List.getElem?_take_of_lt (by omega),
      List.getElem?_drop]
  have hat : ∀ i, i < 7 → at' (payload m) i = (m.getD (5 + i) 0).toNat := by
    intro i hi
    rw [← hg i hi, List.getD_eq_getElem?_getD]
    rfl
  unfold showState
  rw [hc, hd, if_pos rfl, hat 0 (by omega), hat 1 (by omega), hat 2 (by omega), or_bytes]
  dsimp only
  have hv := value_loop (payload m) hpl (TelemetrySpec.fieldSize m) 0 0 (by omega) (by norm_num)
  rw [← List.range_eq_range', Nat.zero_add] at hv
  have e1 : (m.getD (5 + 2) 0).toNat = TelemetrySpec.fieldSize m := rfl
  have e2 : (m.getD (5 + 0) 0).toNat * 256 + (m.getD (5 + 1) 0).toNat = TelemetrySpec.fieldId m := rfl
  rw [e1, e2, hv]
  dsimp only
  rw [hn]
  dsimp only
  congr 1
  unfold TelemetrySpec.fieldValue
  congr 1
  apply List.map_congr_left
  intro i hi
  rw [List.mem_range] at hi
  rw [hg _ (by omega)]

/-- The line for a quantity: its name and value; floats as their 32 bits. -/
def Displays (e : String × TelemetrySpec.Reading) (s : Shown) : Prop :=
  ∃ v, s = .update e.1 v ∧
    match e.2 with
    | .nat n => v = n
    | .flt x => F32.value (UInt32.ofNat v) = x

/-- What is displayed: the expected lines, except that the line for the cell of the maximum
temperature shows the cell of the *minimum* temperature (`C46_max_temp_id_wrong`). -/
def displayed (d : VData) : List (String × TelemetrySpec.Reading) :=
  (TelemetrySpec.labelled d).map fun e =>
    if e.1 = "BMS Max cell temp ID" then (e.1, .nat d.battery.minCellTemperatureCellID.toNat) else e

/-- C86 (part): every broadcast of the vehicle state is displayed: eleven updates with the
fields' names and exactly the values of the state (the exception is the field of
`C46_max_temp_id_wrong`), in order, under the condition on CR LF. -/
theorem C86_state_partial (bits : F32 → UInt32) (hbits : ∀ x, F32.IsFloat x → F32.value (bits x) = x) (d : VData)
    (hd : Telemetry.FloatsOk d) (counter : UInt32) (hc : counter % 100 = 0) (buf : List UInt8) (hb : buf.length = 18)
    (fs : List (List UInt8))
    (hfs : fs.filter (·.length = 18) = Telemetry.periodicStateUpdate (fun m => some (hal m)) bits true counter (some d) buf)
    (hother : ∀ f ∈ fs, f.length ≠ 18 → LogFrame f ∧ (f.drop 25).take 5 ≠ [0x3A, 0x00, 0x02, 0x00, 0x01])
    (hcrc : ∀ f ∈ fs, f.length = 18 → (f.drop 11).take 5 ≠ [0x3A, 0x00, 0x02, 0x00, 0x02])
    (honly : ∀ f ∈ fs, OnlyAtEnd f) (chunks : List (List UInt8)) (hch : chunks.flatten = fs.flatten) :
    List.Forall₂ Displays (displayed d) ((delivered stateCfg chunks).map showState) := by
  have h46 := Telemetry.C46_fields_partial hal bits hbits d hd counter hc buf hb
  rw [← hfs] at h46
  have hst : ∀ f ∈ fs, f.length = 18 → StateFrame f := by
    intro f hm hl
    have hin : f ∈ fs.filter (·.length = 18) := List.mem_filter.mpr ⟨hm, by simpa using hl⟩
    have : ∀ {a : List (List UInt8)} {b}, List.Forall₂ (fun m (e : Nat × Nat × TelemetrySpec.Reading) =>
        Valid hal 18 m ∧ m.take 5 = [0x3A, 0x00, 0x02, 0x00, 0x01] ∧ TelemetrySpec.Reads m e) a b →
        ∀ m ∈ a, StateFrame m := by
      intro a b h
      induction h with
      | nil => simp
      | cons x _ ih =>
        intro m hm
        rcases List.mem_cons.mp hm with rfl | hm
        · exact ⟨x.1, x.2.1⟩
        · exact ih m hm
    exact this h46 f hin
  have hsh := (C84_shows_partial fs (by
      intro f hm
      by_cases hl : f.length = 18
      · exact .inr (hst f hm hl)
      · exact .inl (hother f hm hl).1) honly (fun f hm hl => (hother f hm (by omega)).2) hcrc chunks hch).2
  have hnames : List.Forall₂ (fun (e : Nat × Nat × TelemetrySpec.Reading) (f : String × TelemetrySpec.Reading) =>
      e.2.1 ≤ 7 ∧ fieldName e.1 = some f.1 ∧ f.2 = e.2.2) (Telemetry.actual d) (displayed d) := by
    unfold Telemetry.actual TelemetrySpec.table displayed TelemetrySpec.labelled
    simp [fieldName]
  generalize Telemetry.actual d = es at h46 hnames
  generalize displayed d = ls at hnames ⊢
  generalize delivered stateCfg chunks = ds at hsh
  generalize fs.filter (·.length = 18) = gs at h46 hsh
  clear hfs
  induction h46 generalizing ds ls with
  | nil => cases hsh; cases hnames; exact .nil
  | @cons m e gs es h _ ih =>
    cases hsh with
    | @cons _ dd _ ds hx hrest =>
      cases hnames with
      | @cons _ f _ ls hf hls =>
        obtain ⟨hs, hn, hv⟩ := hf
        obtain ⟨r1, r2, r3⟩ := h.2.2
        refine .cons ?_ (ih ls hls ds hrest)
        refine ⟨TelemetrySpec.fieldValue m, ?_, by rw [hv]; exact r3⟩
        exact showState_reads m dd h.1.len hx.1 hx.2 (by omega) f.1 (by rw [r1]; exact hn)

/-! ## C87: messages from the PC -/

/-- C87: a message encoded by the PC tool is byte for byte the frame that the firmware's
encoder would produce, and the firmware's decoder accepts it. -/
theorem C87_encode (a f : UInt16) (p buf : List UInt8) (hlen : buf.length = p.length + 11)
    (hmax : p.length + 11 ≤ MsgFrame.bufLen) (d : Nat → UInt8) :
    MsgFrame.encode (fun m => some (hal m)) a f p buf = some (encodeMessage a.toNat f.toNat p) ∧
    Valid hal (p.length + 11) (encodeMessage a.toNat f.toNat p) ∧
    ∃ s s1 s2, MsgFrame.init (p.length + 11) d = some s ∧
      MsgFrame.recvBytes s (encodeMessage a.toNat f.toNat p) = .ok (true, s1) ∧
      MsgFrame.recvMsg (MsgFrame.unit hal) s1 = .ok (some 0, s2) ∧
      MsgFrame.slice s2.data 0 (p.length + 11) = encodeMessage a.toNat f.toNat p := by
  have hb : ∀ n : Nat, UInt8.ofNat (n &&& 0xFF) = UInt8.ofNat n := by
    intro n
    rw [show (0xFF : Nat) = 2 ^ 8 - 1 from rfl, Nat.and_two_pow_sub_one_eq_mod]
    exact UInt8.toNat_inj.mp (by simp)
  have hhead : ∀ x : UInt16, UInt8.ofNat ((x.toNat >>> 8) &&& 0xFF) = (x >>> 8).toUInt8 ∧
      UInt8.ofNat (x.toNat &&& 0xFF) = x.toUInt8 := by
    intro x
    rw [hb, hb]
    constructor
    · apply UInt8.toNat_inj.mp
      rw [UInt8.toNat_ofNat', UInt16.toNat_toUInt8, UInt16.toNat_shiftRight]
      rfl
    · apply UInt8.toNat_inj.mp
      rw [UInt8.toNat_ofNat', UInt16.toNat_toUInt8]
  have heq : encodeMessage a.toNat f.toNat p = MsgFrame.header a f ++ p ++
      MsgFrame.be32 (hal (MsgFrame.header a f ++ p ++ [0, 0, 0, 0] ++ [0x0D, 0x0A])) ++ [0x0D, 0x0A] := by
    unfold encodeMessage
    dsimp only
    rw [(hhead a).1, (hhead a).2, (hhead f).1, (hhead f).2, C81_same_checksum, hb, hb, hb, hb, ← MsgFrame.be_eq]
    unfold FrameSpec.be MsgFrame.header
    simp only [Nat.shiftRight_eq_div_pow, List.append_assoc, List.cons_append, List.nil_append]
    simp
  have he := MsgFrame.encode_eq (fun m => some (hal m)) a f p buf hlen
  rw [Option.getD_some, ← heq] at he
  obtain ⟨frame, s, s1, s2, e1, e2, -, -, -, e3, e4, e5, e6⟩ := MsgFrame.C33_round_trip hal a f p buf hlen hmax d
  rw [he] at e1
  injection e1 with e1
  subst e1
  exact ⟨he, e2, s, s1, s2, e3, e4, e5, e6⟩

/-! ## C88: messages of any length -/

/-- C88: the windows that the decoder for messages of any length finds are shorter than
its buffer. -/
theorem varInner_short (off : Nat) (ns : List Nat) (buf : List UInt8) (N : Nat) (hns : ∀ n ∈ ns, n < N) :
    ∀ w ∈ (varInner off ns buf).1, w.length < N := by
  induction ns generalizing buf with
  | nil => simp [varInner]
  | cons n ns ih =>
    have ih' := fun b => ih b (fun n hn => hns n (by simp [hn]))
    unfold varInner
    dsimp only
    have hn := hns n (by simp)
    cases h : tryDecode (List.take n (List.drop off buf)) n with
    | none => exact ih' buf
    | some msg =>
      dsimp only
      split_ifs with hc
      · intro w hw
        rcases List.mem_cons.mp hw with rfl | hw
        · rw [List.length_take]; omega
        · exact ih' _ w hw
      · exact ih' buf

theorem varInner_le (off : Nat) (ns : List Nat) (buf : List UInt8) : (varInner off ns buf).2.length ≤ buf.length := by
  induction ns generalizing buf with
  | nil => simp [varInner]
  | cons n ns ih =>
    unfold varInner
    dsimp only
    cases h : tryDecode (List.take n (List.drop off buf)) n with
    | none => exact ih buf
    | some msg =>
      dsimp only
      split_ifs with hc
      · have := ih (buf.drop (off + n))
        rw [List.length_drop] at this
        show (varInner off ns (buf.drop (off + n))).2.length ≤ _
        omega
      · exact ih buf

/-- C88 fails: whatever the buffer, the decoder for messages of any length never finds a
message that fills it; a frame that arrives alone stays unseen until another byte comes. -/
theorem C88_missed (buf b : List UInt8) :
    ∀ w ∈ (recvVariable buf b).1, w.length < ((buf ++ b).dropWhile (· ≠ 0x3A)).length := by
  unfold recvVariable
  rw [unpack_eq]
  generalize (buf ++ b).dropWhile (· ≠ 0x3A) = l
  unfold decodeVariable
  split_ifs with h
  · simp
  · have key : ∀ (offs : List Nat) (x : List UInt8), x.length ≤ l.length → ∀ w ∈ (varOuter offs x).1, w.length < l.length := by
      intro offs
      induction offs with
      | nil => intro x _; simp [varOuter]
      | cons o offs ih =>
        intro x hx w hw
        unfold varOuter at hw
        rcases List.mem_append.mp hw with hw | hw
        · refine varInner_short o _ x l.length ?_ w hw
          intro n hn
          rw [List.mem_range'_1] at hn
          omega
        · exact ih _ ((varInner_le o _ x).trans hx) w hw
    exact key _ l le_rfl

/-- C88: hence a valid frame received on its own is not delivered. -/
theorem C88_not : ¬ ∀ (L : Nat) (m : List UInt8), Valid hal L m → 11 ≤ L → m ∈ (recvVariable [] m).1 := by
  intro h
  have h2 : Valid hal 18 badState := ⟨rfl, rfl, rfl, rfl, by decide +kernel⟩
  have := C88_missed [] badState badState (h 18 badState h2 (by omega))
  have e : (([] ++ badState).dropWhile (· ≠ 0x3A)) = badState := by decide
  rw [e] at this
  omega

/-- With one more byte it is found. -/
example : (recvVariable [] (badState ++ [0x3A])).1 = [badState] := by decide +kernel

end Verif.PcTool
