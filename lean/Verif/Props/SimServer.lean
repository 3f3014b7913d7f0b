import Verif.Model.SimServer
import Verif.Props.PcTool

set_option autoImplicit false

/-!
# C130: the simulation server's texts appear on the log viewer's screen
-/

namespace Verif.SimServer

open Verif.PcTool Verif.PcSpec

/-- What should appear: the text, filled up with NUL characters to whole messages. -/
def padded (text : List UInt8) : List UInt8 :=
  text ++ List.replicate ((32 - text.length % 32) % 32) 0

/-- The bytes of piece `k`. -/
def piece (text : List UInt8) (k : Nat) : List UInt8 :=
  (List.range 32).map fun j => text.getD (32 * k + j) 0

theorem piece_length (text : List UInt8) (k : Nat) : (piece text k).length = 32 := by
  simp [piece]

/-- Python's payload consists of bytes when the text does. -/
theorem toBytes_payload (str : List Nat) (h : ∀ c ∈ str, c < 256) (k : Nat) :
    toBytes (payloadAt str (k * payloadLen)) = some (piece (str.map UInt8.ofNat) k) := by
  have hget : ∀ j, j < 32 → ((str.drop (k * 32)).take 32).getD j 0 = str.getD (32 * k + j) 0 := by
    intro j hj
    rw [List.getD_eq_getElem?_getD, List.getD_eq_getElem?_getD, List.getElem?_take, if_pos hj,
      List.getElem?_drop, Nat.mul_comm]
  have hall : (payloadAt str (k * payloadLen)).all (· < 256) = true := by
    rw [List.all_eq_true]
    intro c hc
    unfold payloadAt at hc
    obtain ⟨j, hj, rfl⟩ := List.mem_map.mp hc
    rw [show payloadLen = 32 from rfl] at hj ⊢
    rw [hget j (List.mem_range.mp hj), List.getD_eq_getElem?_getD]
    cases hs : str[32 * k + j]? with
    | none => decide
    | some c => exact decide_eq_true (h c (List.mem_of_getElem? hs))
  unfold toBytes
  rw [if_pos hall]
  congr 1
  unfold payloadAt piece
  rw [List.map_map]
  apply List.map_congr_left
  intro j hj
  rw [Function.comp_apply, show payloadLen = 32 from rfl, hget j (List.mem_range.mp hj),
    List.getD_eq_getElem?_getD, List.getD_eq_getElem?_getD, List.getElem?_map]
  cases str[32 * k + j]? <;> rfl

theorem mapM_some {α β : Type} (f : α → Option β) (g : α → β) (l : List α)
    (h : ∀ a ∈ l, f a = some (g a)) : l.mapM f = some (l.map g) := by
  induction l with
  | nil => rfl
  | cons a l ih =>
    rw [List.mapM_cons, h a (by simp), ih (fun b hb => h b (by simp [hb]))]
    rfl

/-- The messages the server makes of a text of bytes. -/
theorem createLogMsgs_some (str : List Nat) (h : ∀ c ∈ str, c < 256) :
    createLogMsgs str = some ((List.range ((str.length + 31) / 32)).map fun k =>
      encodeMessage 2 2 (piece (str.map UInt8.ofNat) k)) := by
  unfold createLogMsgs
  rw [show payloadLen = 32 from rfl, show str.length + 32 - 1 = str.length + 31 by omega]
  apply mapM_some
  intro k _
  have := toBytes_payload str h k
  rw [show payloadLen = 32 from rfl] at this
  rw [this]
  rfl

theorem logFrame_encode (p : List UInt8) (hp : p.length = 32) : LogFrame (encodeMessage 2 2 p) := by
  have h := (C87_encode 2 2 p (List.replicate 43 0) (by simp [hp]) (by rw [hp]; decide)
    (fun _ => 0)).2.1
  rw [hp] at h
  exact ⟨h, rfl⟩

theorem payload_encode (p : List UInt8) : payload (encodeMessage 2 2 p) = p := by
  unfold payload encodeMessage
  simp

theorem flatten_pieces (f : Nat → UInt8) : ∀ n : Nat,
    ((List.range n).map fun k => (List.range 32).map fun j => f (32 * k + j)).flatten =
      (List.range (32 * n)).map f
  | 0 => rfl
  | n + 1 => by
    have e : List.range (n + 1) = List.range n ++ [n] := List.range_succ
    rw [e, List.map_append, List.flatten_append, flatten_pieces f n,
      show 32 * (n + 1) = 32 * n + 32 by omega, List.range_add, List.map_append, List.map_map]
    simp only [List.map_cons, List.map_nil, List.flatten_cons, List.flatten_nil, List.append_nil]
    rfl

theorem range_padded (text : List UInt8) :
    (List.range (32 * ((text.length + 31) / 32))).map (fun i => text.getD i 0) = padded text := by
  apply List.ext_getElem?
  intro i
  unfold padded
  rw [List.getElem?_map, List.getElem?_append, List.getElem?_replicate]
  by_cases hi : i < text.length
  · have h1 : i < 32 * ((text.length + 31) / 32) := by omega
    rw [if_pos hi, List.getElem?_range h1]
    simp [hi]
  · rw [if_neg hi]
    by_cases h1 : i < 32 * ((text.length + 31) / 32)
    · have h2 : i - text.length < (32 - text.length % 32) % 32 := by omega
      rw [if_pos h2, List.getElem?_range h1]
      simp [Nat.not_lt.mp hi]
    · have h2 : ¬ i - text.length < (32 - text.length % 32) % 32 := by omega
      rw [if_neg h2, List.getElem?_eq_none (by simpa using h1)]
      rfl

/-- **The simulation server's texts appear on the screen.**  For every text of characters below 256, the
server makes messages without an exception; sent alone, and however the reads cut them, the log viewer
shows exactly the text, filled up with NUL characters, and nothing in the colour of failures. -/
theorem C130_shown (str : List Nat) (h : ∀ c ∈ str, c < 256) :
    ∃ msgs, createLogMsgs str = some msgs ∧
      ∀ chunks : List (List UInt8), chunks.flatten = sent msgs →
        ((delivered logCfg chunks).map showLog).flatMap (·.1) = padded (str.map UInt8.ofNat) ∧
        ∀ m ∈ (delivered logCfg chunks).map showLog, m.2 = false := by
  refine ⟨_, createLogMsgs_some str h, fun chunks hch => ?_⟩
  have h1 := C84_logs_alone_partial _ (fun f hf => by
    obtain ⟨k, _, rfl⟩ := List.mem_map.mp hf
    exact logFrame_encode _ (piece_length _ k)) chunks hch
  rw [h1]
  constructor
  · rw [List.map_map, List.flatMap_def, List.map_map]
    have h2 := range_padded (str.map UInt8.ofNat)
    rw [← h2, ← flatten_pieces, List.length_map]
    simp only [Function.comp_def, payload_encode]
    rfl
  · intro m hm
    obtain ⟨f, _, rfl⟩ := List.mem_map.mp hm
    rfl

/-- A text with a character that is not a byte is not sent: the server ends with an exception. -/
theorem C130_not_a_byte (str : List Nat) (h : ∃ c ∈ str, 256 ≤ c) : createLogMsgs str = none := by
  obtain ⟨c, hc, hb⟩ := h
  obtain ⟨i, hi, hic⟩ := List.getElem_of_mem hc
  have hn : ∀ (l : List Nat) (f : Nat → Option (List UInt8)), (∃ k ∈ l, f k = none) →
      l.mapM f = none := by
    intro l f
    induction l with
    | nil => rintro ⟨k, hk, _⟩; cases hk
    | cons a l ih =>
      rintro ⟨k, hk, hf⟩
      rw [List.mapM_cons]
      cases ha : f a with
      | none => rfl
      | some b =>
        rcases List.mem_cons.mp hk with rfl | hk
        · rw [ha] at hf; cases hf
        · rw [ih ⟨k, hk, hf⟩]; rfl
  apply hn
  refine ⟨i / 32, List.mem_range.mpr ?_, ?_⟩
  · rw [show payloadLen = 32 from rfl]; omega
  · have hmem : c ∈ payloadAt str (i / 32 * payloadLen) := by
      unfold payloadAt
      rw [show payloadLen = 32 from rfl]
      refine List.mem_map.mpr ⟨i % 32, List.mem_range.mpr (Nat.mod_lt _ (by omega)), ?_⟩
      rw [List.getD_eq_getElem?_getD, List.getElem?_take, if_pos (Nat.mod_lt _ (by omega)),
        List.getElem?_drop, show i / 32 * 32 + i % 32 = i by omega, List.getElem?_eq_getElem hi, hic]
      rfl
    have : (payloadAt str (i / 32 * payloadLen)).all (· < 256) = false := by
      rw [List.all_eq_false]
      exact ⟨c, hmem, by simpa using hb⟩
    unfold toBytes
    rw [this]
    rfl

/-- A case: the server's first text is one message, and is shown with fourteen NUL characters. -/
example :
    let text := "Test log message 1\n".toList.map Char.toNat
    (createLogMsgs text).map List.length = some 1 ∧
    (padded (text.map UInt8.ofNat)).length = 32 := by
  decide +kernel

end Verif.SimServer
