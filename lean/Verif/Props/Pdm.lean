import Verif.Model.Pdm
import Mathlib.Tactic.ByContra
import Mathlib.Data.List.Nodup

set_option autoImplicit false

/-!
# Power distribution (C55)
-/

namespace Verif.PdmSpec

open Verif.Pdm

/-- The state last commanded for channel `ch` among the commands that could be carried out. -/
def commanded (ch : Nat) (init : Bool) : List Cmd → Bool
  | [] => init
  | c :: cs => commanded ch (if c.channel.toNat = ch ∧ c.lock = true then c.state else init) cs

end Verif.PdmSpec

namespace Verif.Pdm

open Verif.PdmSpec

/-- A usable configuration: as many distinct pins as channels, accepted by `PDM_Init`. -/
structure Good (s : St) (pins : List Nat) : Prop where
  chans : s.channels = some pins
  num : s.numChannels = pins.length
  distinct : pins.Nodup
  accepted : init s true = .ok
  pub : s.published.length = maxChannels

theorem good_le {s : St} {pins : List Nat} (g : Good s pins) : s.numChannels ≤ 8 := by
  have h := g.accepted
  unfold init at h
  by_contra hc
  split at h
  · cases h
  · split at h
    · cases h
    · rw [if_pos (show maxChannels < s.numChannels from by unfold maxChannels; omega)] at h
      cases h

/-- One command of a good configuration. -/
theorem set_spec {s : St} {pins : List Nat} (g : Good s pins) (c : Cmd) :
    ∃ r s', setOutputEnabled s c.channel c.state c.lock = .ok (r, s') ∧ Good s' pins ∧
      (∀ ch (h : ch < pins.length),
        s'.published[ch]? = (if c.channel.toNat = ch ∧ c.lock = true then some c.state
          else s.published[ch]?) ∧
        s'.level pins[ch] = (if c.channel.toNat = ch ∧ c.lock = true then c.state
          else s.level pins[ch])) ∧
      (∀ p, p ∉ pins → s'.level p = s.level p) ∧
      (∀ ch, pins.length ≤ ch → s'.published[ch]? = s.published[ch]?) ∧
      (r ≠ .ok → s' = s) ∧
      (r = .ok ↔ c.channel.toNat < pins.length ∧ c.lock = true) := by
  have hle := good_le g
  unfold setOutputEnabled
  by_cases h1 : s.numChannels ≤ c.channel.toNat
  · rw [if_pos h1]
    have hn := g.num
    refine ⟨_, s, rfl, g, ?_, fun _ _ => rfl, fun _ _ => rfl, fun _ => rfl, ?_⟩
    · intro ch hch
      rw [if_neg (by omega), if_neg (by omega)]; exact ⟨rfl, rfl⟩
    · constructor
      · intro h; cases h
      · intro h; omega
  · rw [if_neg h1]
    cases hl : c.lock with
    | false =>
      rw [if_pos (by simp)]
      refine ⟨_, s, rfl, g, ?_, fun _ _ => rfl, fun _ _ => rfl, fun _ => rfl, ?_⟩
      · intro ch hch
        simp
      · simp
    | true =>
      have hn := g.num
      have hlt : c.channel.toNat < pins.length := by omega
      have hp : c.channel.toNat < s.published.length := by
        rw [g.pub]; show _ < 8; omega
      simp only [Bool.not_true, Bool.false_eq_true, if_false]
      rw [if_pos hp, g.chans]
      simp only [List.getElem?_eq_getElem hlt]
      refine ⟨_, _, rfl, ⟨rfl, g.num, g.distinct, ?_, ?_⟩, ?_, ?_, ?_, ?_, ?_⟩
      · have := g.accepted
        simpa [init, g.chans] using this
      · simpa using g.pub
      · intro ch hch
        refine ⟨?_, ?_⟩
        · by_cases hc : c.channel.toNat = ch
          · subst hc; simp [hp]
          · simp [hc, List.getElem?_set_ne hc]
        · by_cases hc : c.channel.toNat = ch
          · subst hc; simp
          · have hne : pins[ch] ≠ pins[c.channel.toNat] := fun he =>
              hc ((List.Nodup.getElem_inj_iff g.distinct).1 he).symm
            simp [hc, hne]
      · intro p hp'
        have hne : p ≠ pins[c.channel.toNat] := fun he => hp' (he ▸ List.getElem_mem _)
        simp [hne]
      · intro ch hch
        exact List.getElem?_set_ne (by omega)
      · intro h; exact absurd rfl h
      · simp [hlt]

/-- **C55.** For every usable configuration whose published states agree with the pins at the
beginning, and every sequence of commands (to any channel, with any outcome of taking the lock):
nothing is accessed out of bounds; afterwards every channel's published state and the level driven
on its pin both are the state last commanded with success; every other pin and every published
entry beyond the channels is untouched. -/
theorem C55_mirror (s : St) (pins : List Nat) (g : Good s pins)
    (h0 : ∀ ch (h : ch < pins.length), s.published[ch]? = some (s.level pins[ch]))
    (cs : List Cmd) :
    ∃ s', run s cs = .ok s' ∧
      (∀ ch (h : ch < pins.length),
        s'.published[ch]? = some (commanded ch (s.level pins[ch]) cs) ∧
        s'.level pins[ch] = commanded ch (s.level pins[ch]) cs) ∧
      (∀ p, p ∉ pins → s'.level p = s.level p) ∧
      (∀ ch, pins.length ≤ ch → s'.published[ch]? = s.published[ch]?) := by
  induction cs generalizing s with
  | nil => exact ⟨s, rfl, fun ch h => ⟨h0 ch h, rfl⟩, fun _ _ => rfl, fun _ _ => rfl⟩
  | cons c cs ih =>
    obtain ⟨r, m, e, gm, hm, ho, hb, _, _⟩ := set_spec g c
    have h0' : ∀ ch (h : ch < pins.length), m.published[ch]? = some (m.level pins[ch]) := by
      intro ch h
      rw [(hm ch h).1, (hm ch h).2, h0 ch h]
      split <;> rfl
    obtain ⟨s', e', h1, h2, h3⟩ := ih m gm h0'
    refine ⟨s', ?_, ?_, ?_, ?_⟩
    · show (setOutputEnabled s c.channel c.state c.lock >>= _) = _
      rw [e]; exact e'
    · intro ch h
      have := h1 ch h
      rw [(hm ch h).2] at this
      exact this
    · intro p hp; rw [h2 p hp, ho p hp]
    · intro ch h; rw [h3 ch h, hb ch h]

/-- **C55, refusals.** A command is carried out exactly if its channel exists and the lock was
obtained; otherwise neither the published states nor any pin change. -/
theorem C55_refused_no_effect (s : St) (pins : List Nat) (g : Good s pins) (c : Cmd) :
    ∃ r s', setOutputEnabled s c.channel c.state c.lock = .ok (r, s') ∧
      (r = .ok ↔ c.channel.toNat < pins.length ∧ c.lock = true) ∧ (r ≠ .ok → s' = s) := by
  obtain ⟨r, s', e, _, _, _, _, h1, h2⟩ := set_spec g c
  exact ⟨r, s', e, h2, h1⟩

/-- The shipped configuration is usable and starts in agreement. -/
theorem C55_shipped : Good shipped shippedPins ∧
    ∀ ch (h : ch < shippedPins.length), shipped.published[ch]? = some (shipped.level shippedPins[ch]) := by
  refine ⟨⟨rfl, rfl, by decide, by simp [init, shipped, maxChannels], rfl⟩, ?_⟩
  intro ch h
  have : ch < 6 := h
  show (List.replicate 8 false)[ch]? = some false
  rw [List.getElem?_replicate, if_pos (by omega)]

/-- Channel 2 on, channel 7 refused, channel 2 off without the lock. -/
example : (run shipped [⟨2, true, true⟩, ⟨7, true, true⟩, ⟨2, false, false⟩]).map
    (fun s => (s.published, s.level 65)) =
    Except.ok ([false, false, true, false, false, false, false, false], true) := by decide

end Verif.Pdm
