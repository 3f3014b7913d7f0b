import Verif.Spec.CanRx
import Mathlib.Data.List.Induction
import Mathlib.Data.List.Forall2
import Mathlib.Tactic.SplitIfs

set_option autoImplicit false

/-!
# C117: frames are delivered whole, in order, and none is lost if the interrupt is served in time
-/

namespace Verif.CanRx

theorem run_concat (dev : Nat) (s : St) (es : List Ev) (e : Ev) :
    run dev s (es ++ [e]) = step dev (run dev s es) e := by simp [run]

/-- The first `k` register reads from the same place. -/
def readN (r : Raw) (h : Hdr) : Nat → Hdr
  | 0 => h
  | k + 1 => readReg k r (readN r h k)

theorem byte_val (w : UInt32) (k : Nat) (hk : k < 4) :
    (byte w (UInt32.ofNat k)).toNat = w.toNat / 256 ^ k % 256 := by
  have h : k = 0 ∨ k = 1 ∨ k = 2 ∨ k = 3 := by omega
  have e : ∀ n : Nat, n &&& 255 = n % 256 := fun n => Nat.and_two_pow_sub_one_eq_mod n 8
  rcases h with rfl | rfl | rfl | rfl <;>
    simp [byte, UInt32.toNat_shiftRight, UInt32.toNat_and, e, Nat.shiftRight_eq_div_pow]

/-- All fourteen reads together give the frame. -/
theorem shows_of_reads (dev : Nat) (r : Raw) (h : Hdr) :
    Shows dev r (frameOf dev (readN r h 14)) := by
  have hd : (readN r h 14).data = (((((((h.data.set 0 (byte r.rdlr 0)).set 1 (byte r.rdlr 1)).set 2
      (byte r.rdlr 2)).set 3 (byte r.rdlr 3)).set 4 (byte r.rdhr 0)).set 5 (byte r.rdhr 1)).set 6
      (byte r.rdhr 2)).set 7 (byte r.rdhr 3) := by
    simp only [readN, readReg]
    split_ifs <;> rfl
  have hl : (readN r h 14).dlc = r.rdtr &&& 0xF := by
    simp only [readN, readReg]
  have hi : (r.rir &&& 4) = 0 → (readN r h 14).stdId = (r.rir &&& 0xFFE00000) >>> 21 := by
    intro h0
    simp only [readN, readReg, h0, if_true]
  refine ⟨rfl, ?_, ?_, ?_⟩
  · dsimp only [frameOf]
    rw [hl, UInt32.toNat_and]
    exact Nat.and_two_pow_sub_one_eq_mod _ 4
  · intro k hk
    dsimp only [frameOf]
    rw [hd]
    have b0 := byte_val r.rdlr 0 (by decide)
    have b1 := byte_val r.rdlr 1 (by decide)
    have b2 := byte_val r.rdlr 2 (by decide)
    have b3 := byte_val r.rdlr 3 (by decide)
    have c0 := byte_val r.rdhr 0 (by decide)
    have c1 := byte_val r.rdhr 1 (by decide)
    have c2 := byte_val r.rdhr 2 (by decide)
    have c3 := byte_val r.rdhr 3 (by decide)
    have hk' : k = 0 ∨ k = 1 ∨ k = 2 ∨ k = 3 ∨ k = 4 ∨ k = 5 ∨ k = 6 ∨ k = 7 := by omega
    rcases hk' with rfl | rfl | rfl | rfl | rfl | rfl | rfl | rfl
    · simpa [Raw.byte] using b0
    · simpa [Raw.byte] using b1
    · simpa [Raw.byte] using b2
    · simpa [Raw.byte] using b3
    · simpa [Raw.byte] using c0
    · simpa [Raw.byte] using c1
    · simpa [Raw.byte] using c2
    · simpa [Raw.byte] using c3
  · intro hs
    dsimp only [frameOf]
    have h4 : r.rir &&& 4 = 0 := by
      apply UInt32.toNat_inj.mp
      rw [UInt32.toNat_and]
      apply Nat.eq_of_testBit_eq
      intro i
      unfold Raw.isStd at hs
      by_cases h2 : i = 2
      · subst h2
        have : r.rir.toNat.testBit 2 = false := by
          rw [Nat.testBit_eq_decide_div_mod_eq]; simp; omega
        simp [this]
      · have : Nat.testBit 4 i = false := by
          have h3 : (4 : Nat) = 2 ^ 2 := rfl
          rw [h3, Nat.testBit_two_pow]; simp; omega
        have e4 : (4 : UInt32).toNat = 4 := rfl
        simp [e4, this]
    rw [hi h4, UInt32.toNat_shiftRight, UInt32.toNat_and, Raw.stdId]
    have e1 : (0xFFE00000 : UInt32).toNat = 0xFFE00000 := rfl
    have e2 : (21 : UInt32).toNat % 32 = 21 := rfl
    rw [e1, e2, Nat.shiftRight_and_distrib]
    have e3 : 0xFFE00000 >>> 21 = 2 ^ 11 - 1 := rfl
    rw [e3, Nat.and_two_pow_sub_one_eq_mod, Nat.shiftRight_eq_div_pow]
    have := r.rir.toNat_lt
    omega

/-- Frames taken out of the FIFO but not yet dispatched. -/
def inflight (s : St) : Nat := if s.pc = .got then 1 else 0

/-- Invariant of all runs; `taken` are the frames taken out of the FIFO so far. -/
structure Inv (dev : Nat) (s : St) (taken : List Raw) : Prop where
  depth : s.fifo.length ≤ 3
  order : (taken ++ s.fifo).Sublist s.arrived
  newest : (taken ++ s.fifo).getLast? = s.arrived.getLast?
  exact : s.overrun = false → taken ++ s.fifo = s.arrived
  reading : ∀ k, s.pc = .rd k → k < 14 ∧ ∃ r h, s.fifo.head? = some r ∧ s.hdr = readN r h k
  ready : s.pc = .release → ∃ r h, s.fifo.head? = some r ∧ s.hdr = readN r h 14
  check : s.pc = .check → s.fifo ≠ []
  shown : s.pc ≠ .got → List.Forall₂ (Shows dev) taken s.delivered
  got : s.pc = .got → ∃ t r h, taken = t ++ [r] ∧ List.Forall₂ (Shows dev) t s.delivered ∧
    s.hdr = readN r h 14

theorem inv_boot (dev : Nat) (h : Hdr) : Inv dev (boot h) [] where
  depth := by simp [boot]
  order := by simp [boot]
  newest := rfl
  exact := fun _ => rfl
  reading := by simp [boot]
  ready := by simp [boot]
  check := by simp [boot]
  shown := fun _ => List.Forall₂.nil
  got := by simp [boot]

/-- A frame arriving leaves the oldest one alone. -/
theorem store_head (r q : Raw) (s : St) (h : s.fifo.head? = some q) : (store r s).fifo.head? = some q := by
  unfold store
  have hd : depth = 3 := rfl
  have hlk : locked = false := rfl
  rw [hd, hlk]
  rcases hf : s.fifo with _ | ⟨a, l⟩
  · rw [hf] at h; cases h
  rw [hf] at h
  rcases l with _ | ⟨b, l⟩
  · simpa using h
  · split_ifs <;> simpa using h

theorem store_inv (dev : Nat) (r : Raw) (s : St) (t : List Raw) (h : Inv dev s t) :
    Inv dev (store r s) t := by
  have hpc : (store r s).pc = s.pc := by unfold store; split_ifs <;> rfl
  have hhdr : (store r s).hdr = s.hdr := by unfold store; split_ifs <;> rfl
  have hdel : (store r s).delivered = s.delivered := by unfold store; split_ifs <;> rfl
  have harr : (store r s).arrived = s.arrived ++ [r] := by unfold store; split_ifs <;> rfl
  have hfifo : (s.fifo.length < 3 ∧ (store r s).fifo = s.fifo ++ [r] ∧ (store r s).overrun = s.overrun) ∨
      (s.fifo.length = 3 ∧ (store r s).fifo = s.fifo.dropLast ++ [r] ∧ (store r s).overrun = true) := by
    have := h.depth
    unfold store
    have hd : depth = 3 := rfl
    rw [hd]
    split_ifs with h1 h2
    · exact Or.inl ⟨h1, rfl, rfl⟩
    · exact absurd h2 (by decide)
    · exact Or.inr ⟨by omega, rfl, rfl⟩
  refine ⟨?_, ?_, ?_, ?_, ?_, ?_, ?_, ?_, ?_⟩
  · rcases hfifo with ⟨h1, h2, -⟩ | ⟨h1, h2, -⟩ <;> rw [h2] <;> simp <;> omega
  · rw [harr]
    rcases hfifo with ⟨h1, h2, -⟩ | ⟨h1, h2, -⟩ <;> rw [h2, ← List.append_assoc]
    · exact h.order.append (List.Sublist.refl _)
    · refine List.Sublist.append (List.Sublist.trans ?_ h.order) (List.Sublist.refl _)
      exact List.Sublist.append (List.Sublist.refl _) (List.dropLast_sublist _)
  · rw [harr]
    rcases hfifo with ⟨h1, h2, -⟩ | ⟨h1, h2, -⟩ <;> rw [h2, ← List.append_assoc] <;> simp
  · intro ho
    rcases hfifo with ⟨h1, h2, h3⟩ | ⟨h1, h2, h3⟩
    · rw [h3] at ho
      rw [h2, harr, ← List.append_assoc, h.exact ho]
    · rw [h3] at ho; cases ho
  · intro k hk
    rw [hpc] at hk
    obtain ⟨h1, q, g, h2, h3⟩ := h.reading k hk
    exact ⟨h1, q, g, store_head r q s h2, by rw [hhdr, h3]⟩
  · intro hk
    rw [hpc] at hk
    obtain ⟨q, g, h2, h3⟩ := h.ready hk
    exact ⟨q, g, store_head r q s h2, by rw [hhdr, h3]⟩
  · intro _ h0
    rcases hfifo with ⟨h1, h2, -⟩ | ⟨h1, h2, -⟩ <;> rw [h2] at h0 <;> simp at h0
  · intro hk
    rw [hpc] at hk
    rw [hdel]; exact h.shown hk
  · intro hk
    rw [hpc] at hk
    rw [hdel, hhdr]; exact h.got hk

theorem cpu_inv (dev : Nat) (st : Hdr) (s : St) (t : List Raw) (h : Inv dev s t) :
    ∃ t', Inv dev (cpu dev st s) t' := by
  obtain ⟨hd, ho, hn, he, hr, hy, hc, hs, hg⟩ := h
  rcases hp : s.pc with _ | _ | _ | k | _ | _ <;> rw [hp] at hr hy hc hs hg <;>
    simp only [cpu, hp]
  · split_ifs with h0
    · exact ⟨t, hd, ho, hn, he, by simp [hp], by simp [hp], by simp [hp], fun _ => hs (by simp), by simp [hp]⟩
    · exact ⟨t, hd, ho, hn, he, by simp, by simp, by simp, fun _ => hs (by simp), by simp⟩
  · split_ifs with h0
    · exact ⟨t, hd, ho, hn, he, by simp, by simp, by simp, fun _ => hs (by simp), by simp⟩
    · exact ⟨t, hd, ho, hn, he, by simp, by simp, fun _ => by simpa using h0, fun _ => hs (by simp), by simp⟩
  · split_ifs with h0
    · exact ⟨t, hd, ho, hn, he, by simp, by simp, by simp, fun _ => hs (by simp), by simp⟩
    · refine ⟨t, hd, ho, hn, he, ?_, by simp, by simp, fun _ => hs (by simp), by simp⟩
      intro k hk
      cases hk
      refine ⟨by decide, ?_⟩
      rcases hf : s.fifo with _ | ⟨r, l⟩
      · exact absurd hf (hc rfl)
      · exact ⟨r, s.hdr, by simp [hf], rfl⟩
  · obtain ⟨hk, r, g, h1, h2⟩ := hr k rfl
    have hhead : s.fifo.headD stale = r := by
      rcases hf : s.fifo with _ | ⟨a, l⟩
      · rw [hf] at h1; cases h1
      · rw [hf] at h1; simpa using h1
    have hrd : reads = 14 := rfl
    refine ⟨t, hd, ho, hn, he, ?_, ?_, ?_, fun _ => hs (by simp), ?_⟩
    · intro j hj
      dsimp only at hj
      split_ifs at hj with h3
      cases hj
      exact ⟨by omega, r, g, h1, by simp only [hhead, h2, readN]⟩
    · intro hj
      dsimp only at hj
      split_ifs at hj with h3
      have : k = 13 := by omega
      subst this
      exact ⟨r, g, h1, by simp only [hhead, h2]; rfl⟩
    · intro hj
      dsimp only at hj
      split_ifs at hj
    · intro hj
      dsimp only at hj
      split_ifs at hj
  · obtain ⟨r, g, h1, h2⟩ := hy rfl
    rcases hf : s.fifo with _ | ⟨a, l⟩
    · rw [hf] at h1; cases h1
    rw [hf] at h1 hd ho hn he
    simp only [List.head?_cons, Option.some.injEq] at h1
    subst h1
    refine ⟨t ++ [a], ?_, ?_, ?_, ?_, by simp, by simp, by simp, by simp, ?_⟩
    · simp at hd ⊢; omega
    · simpa using ho
    · simpa using hn
    · intro h3; simpa using he h3
    · intro _
      exact ⟨t, a, g, rfl, hs (by simp), h2⟩
  · obtain ⟨u, r, g, h1, h2, h3⟩ := hg rfl
    refine ⟨t, hd, ho, hn, he, by simp, by simp, by simp, ?_, by simp⟩
    intro _
    rw [h1]
    dsimp only
    rw [h3]
    exact List.rel_append h2 (List.Forall₂.cons (shows_of_reads dev r g) List.Forall₂.nil)

theorem inv_run (dev : Nat) (h : Hdr) (es : List Ev) : ∃ t, Inv dev (run dev (boot h) es) t := by
  induction es using List.reverseRecOn with
  | nil => exact ⟨[], inv_boot dev h⟩
  | append_singleton es e ih =>
    obtain ⟨t, ht⟩ := ih
    rw [run_concat]
    rcases e with r | st
    · exact ⟨t, store_inv dev r _ t ht⟩
    · exact cpu_inv dev st _ t ht

/-- **C117, every delivered frame is whole and in order.** Wherever frames arrive between the register reads
and however late the interrupt is served: the delivered frames show, one by one, a subsequence of the
frames that arrived. None is torn, repeated, invented or overtaken. -/
theorem C117_whole_in_order (dev : Nat) (h : Hdr) (es : List Ev) :
    ∃ t, t.Sublist (run dev (boot h) es).arrived ∧
      List.Forall₂ (Shows dev) t (run dev (boot h) es).delivered := by
  obtain ⟨t, ht⟩ := inv_run dev h es
  by_cases hg : (run dev (boot h) es).pc = .got
  · obtain ⟨u, r, g, h1, h2, -⟩ := ht.got hg
    refine ⟨u, List.Sublist.trans ?_ ht.order, h2⟩
    rw [h1, List.append_assoc]
    exact List.sublist_append_left _ _
  · exact ⟨t, (List.sublist_append_left _ _).trans ht.order, ht.shown hg⟩

/-- **C117, nothing is lost unless the hardware reports an overrun.** Without overrun, when the service routine
has finished and the FIFO is empty, the delivered frames are the arrived ones. -/
theorem C117_lost_only_by_overrun (dev : Nat) (h : Hdr) (es : List Ev)
    (ho : (run dev (boot h) es).overrun = false) (hi : (run dev (boot h) es).pc = .idle)
    (hf : (run dev (boot h) es).fifo = []) :
    List.Forall₂ (Shows dev) (run dev (boot h) es).arrived (run dev (boot h) es).delivered := by
  obtain ⟨t, ht⟩ := inv_run dev h es
  have := ht.exact ho
  rw [hf, List.append_nil] at this
  rw [← this]
  exact ht.shown (by rw [hi]; simp)

/-- **C117, the newest frame gets through in any case**: when the service routine has finished and the FIFO is
empty, the last frame delivered shows the last one that arrived, overrun or not. -/
theorem C117_newest_delivered (dev : Nat) (h : Hdr) (es : List Ev) (r : Raw)
    (hl : (run dev (boot h) es).arrived.getLast? = some r) (hi : (run dev (boot h) es).pc = .idle)
    (hf : (run dev (boot h) es).fifo = []) :
    ∃ f, (run dev (boot h) es).delivered.getLast? = some f ∧ Shows dev r f := by
  obtain ⟨t, ht⟩ := inv_run dev h es
  have hn := ht.newest
  have hs := ht.shown (by rw [hi]; simp)
  rw [hf, List.append_nil, hl] at hn
  rcases List.eq_nil_or_concat t with rfl | ⟨u, q, rfl⟩
  · cases hn
  · simp only [List.concat_eq_append, List.getLast?_append, List.getLast?_singleton, Option.some_or,
      Option.some.injEq] at hn
    subst hn
    have hr := List.forall₂_reverse_iff.mpr hs
    simp only [List.concat_eq_append, List.reverse_append, List.reverse_cons, List.reverse_nil,
      List.nil_append, List.singleton_append] at hr
    generalize hd : (run dev (boot h) es).delivered.reverse = d at hr
    rcases hr with _ | ⟨h1, h2⟩
    rename_i f l
    refine ⟨f, ?_, h1⟩
    have : (run dev (boot h) es).delivered = (f :: l).reverse := by
      rw [← hd, List.reverse_reverse]
    rw [this]; simp

/-- How far the service routine has to go. -/
def rank (s : St) : Nat :=
  match s.pc with
  | .idle => if s.fifo.length = 0 then 0 else 20 * s.fifo.length + 2
  | .fill => 20 * s.fifo.length + 1
  | .check => 20 * s.fifo.length
  | .rd k => 20 * (s.fifo.length - 1) + (19 - k)
  | .release => 20 * (s.fifo.length - 1) + 4
  | .got => 20 * s.fifo.length + 3

theorem rank_step (dev : Nat) (st : Hdr) (s : St) (t : List Raw) (h : Inv dev s t) (hr : rank s ≠ 0) :
    rank (cpu dev st s) < rank s := by
  rcases hp : s.pc with _ | _ | _ | k | _ | _
  · rcases hf : s.fifo with _ | ⟨a, l⟩
    · simp [rank, hp, hf] at hr
    · simp only [cpu, hp, hf, rank, List.isEmpty_cons, List.length_cons]
      simp
  · rcases hf : s.fifo with _ | ⟨a, l⟩
    · simp [cpu, hp, hf, rank]
    · simp [cpu, hp, hf, rank]
  · rcases hf : s.fifo with _ | ⟨a, l⟩
    · exact absurd hf (h.check hp)
    · simp [cpu, hp, hf, rank]; omega
  · obtain ⟨hk, r, g, h1, -⟩ := h.reading k hp
    have hrd : reads = 14 := rfl
    simp only [cpu, hp, rank, hrd]
    by_cases hl : k + 1 < 14
    · simp only [hl, if_true]; omega
    · simp only [hl, if_false]; omega
  · obtain ⟨r, g, h1, -⟩ := h.ready hp
    rcases hf : s.fifo with _ | ⟨a, l⟩
    · rw [hf] at h1; cases h1
    · simp [cpu, hp, hf, rank]
  · simp only [cpu, hp, rank]; omega

theorem rank_zero (s : St) (h : rank s = 0) (hc : s.pc = .check → s.fifo ≠ [])
    (hk : ∀ k, s.pc = .rd k → k < 14) : s.pc = .idle ∧ s.fifo = [] := by
  unfold rank at h
  rcases hp : s.pc with _ | _ | _ | k | _ | _ <;> rw [hp] at h <;> dsimp only at h
  · split_ifs at h with h0
    · exact ⟨rfl, List.eq_nil_of_length_eq_zero h0⟩
  · omega
  · exact absurd (List.eq_nil_of_length_eq_zero (by omega)) (hc hp)
  · have := hk k hp; omega
  · omega
  · omega

/-- **C117, everything in the FIFO is taken out.** Wherever the processor was when the last frame arrived: after
at most 63 further steps of the service routine the FIFO is empty and the routine has ended. -/
theorem C117_drains (dev : Nat) (h : Hdr) (es : List Ev) (st : Hdr) : ∃ n, n ≤ 63 ∧
    (run dev (boot h) (es ++ List.replicate n (.cpu st))).pc = .idle ∧
    (run dev (boot h) (es ++ List.replicate n (.cpu st))).fifo = [] ∧
    (run dev (boot h) (es ++ List.replicate n (.cpu st))).arrived = (run dev (boot h) es).arrived := by
  have hstart : rank (run dev (boot h) es) ≤ 63 := by
    obtain ⟨t, ht⟩ := inv_run dev h es
    have hd := ht.depth
    unfold rank
    rcases hp : (run dev (boot h) es).pc with _ | _ | _ | k | _ | _ <;> dsimp only
    · split_ifs <;> omega
    · omega
    · omega
    · omega
    · omega
    · omega
  have key : ∀ m es, rank (run dev (boot h) es) ≤ m → ∃ n, n ≤ m ∧
      (run dev (boot h) (es ++ List.replicate n (.cpu st))).pc = .idle ∧
      (run dev (boot h) (es ++ List.replicate n (.cpu st))).fifo = [] ∧
      (run dev (boot h) (es ++ List.replicate n (.cpu st))).arrived = (run dev (boot h) es).arrived := by
    intro m
    induction m with
    | zero =>
      intro es hm
      obtain ⟨t, ht⟩ := inv_run dev h es
      obtain ⟨h1, h2⟩ := rank_zero _ (by omega) ht.check (fun k hk => (ht.reading k hk).1)
      exact ⟨0, Nat.le_refl _, by simpa using h1, by simpa using h2, by simp⟩
    | succ m ih =>
      intro es hm
      obtain ⟨t, ht⟩ := inv_run dev h es
      by_cases h0 : rank (run dev (boot h) es) = 0
      · obtain ⟨h1, h2⟩ := rank_zero _ h0 ht.check (fun k hk => (ht.reading k hk).1)
        exact ⟨0, Nat.zero_le _, by simpa using h1, by simpa using h2, by simp⟩
      · have hlt := rank_step dev st _ t ht h0
        have hs : run dev (boot h) (es ++ [.cpu st]) = cpu dev st (run dev (boot h) es) := run_concat _ _ _ _
        obtain ⟨n, hn, h1, h2, h3⟩ := ih (es ++ [.cpu st]) (by rw [hs]; omega)
        have he : es ++ List.replicate (n + 1) (Ev.cpu st) = es ++ [.cpu st] ++ List.replicate n (.cpu st) := by
          simp [List.replicate_succ]
        refine ⟨n + 1, by omega, ?_, ?_, ?_⟩
        · rw [he]; exact h1
        · rw [he]; exact h2
        · rw [he, h3, hs]
          unfold cpu
          split <;> (try split_ifs) <;> rfl
  exact key 63 es hstart

/-! ### Timing -/

theorem arrivals_append (a b : List (Nat × Ev)) : arrivals (a ++ b) = arrivals a ++ arrivals b := by
  induction a with
  | nil => rfl
  | cons x a ih =>
    rcases x with ⟨t, r | s⟩ <;> simp [arrivals, ih]

theorem arrivals_count (dev : Nat) (h : Hdr) (es : List (Nat × Ev)) :
    (run dev (boot h) (es.map Prod.snd)).arrived.length = (arrivals es).length := by
  induction es using List.reverseRecOn with
  | nil => rfl
  | append_singleton es e ih =>
    rw [List.map_append, List.map_cons, List.map_nil, run_concat, arrivals_append, List.length_append, ← ih]
    rcases e with ⟨t, r | st⟩
    · simp only [step, arrivals, store]
      split_ifs <;> simp
    · simp only [step, arrivals, cpu]
      split <;> (try split_ifs) <;> simp

theorem get_app {α : Type} {l m : List α} {n : Nat} {a : α} (h : l[n]? = some a) : (l ++ m)[n]? = some a := by
  obtain ⟨hn, -⟩ := List.getElem?_eq_some_iff.mp h
  rw [List.getElem?_append_left hn]; exact h

theorem spaced_prefix (a b : List (Nat × Ev)) (h : Spaced (a ++ b)) : Spaced a := by
  intro n x y hx hy
  apply h n x y <;> rw [arrivals_append] <;> exact get_app ‹_›

theorem served_prefix (dev : Nat) (g : Hdr) (a b : List (Nat × Ev)) (h : Served dev g (a ++ b)) :
    Served dev g a := by
  intro j t e hj n x hn hx
  obtain ⟨hl, -⟩ := List.getElem?_eq_some_iff.mp hj
  have ht : (a ++ b).take j = a.take j := List.take_append_of_le_length (by omega)
  have := h j t e (get_app hj) n x (by rw [ht]; exact hn) hx
  rwa [ht] at this

theorem delivered_le (dev : Nat) (s : St) (t : List Raw) (h : Inv dev s t) :
    s.delivered.length ≤ t.length := by
  by_cases hg : s.pc = .got
  · obtain ⟨u, r, g, h1, h2, -⟩ := h.got hg
    rw [h1, ← h2.length_eq]; simp
  · exact Nat.le_of_eq (h.shown hg).length_eq.symm

/-- **C117, no overrun if the interrupt is served in time.** Frames occupy the bus for at least 47 bit times
each. If every frame is delivered within 141 bit times (141 µs at 1 Mbit/s), the FIFO never overruns,
however the bus is loaded. -/
theorem C117_in_time (dev : Nat) (h : Hdr) (es : List (Nat × Ev)) (hsp : Spaced es)
    (hsv : Served dev h es) : (run dev (boot h) (es.map Prod.snd)).overrun = false := by
  induction es using List.reverseRecOn with
  | nil => rfl
  | append_singleton es e ih =>
    have ho := ih (spaced_prefix _ _ hsp) (served_prefix _ _ _ _ hsv)
    rw [List.map_append, List.map_cons, List.map_nil, run_concat]
    obtain ⟨t, ht⟩ := inv_run dev h (es.map Prod.snd)
    rcases e with ⟨tm, r | st⟩
    · simp only [step, store]
      have hlen : (run dev (boot h) (es.map Prod.snd)).fifo.length < depth := by
        have hd : depth = 3 := rfl
        rw [hd]
        by_contra hfull
        have h3 : (run dev (boot h) (es.map Prod.snd)).fifo.length = 3 := by have := ht.depth; omega
        have hx := congrArg List.length (ht.exact ho)
        rw [List.length_append, arrivals_count, h3] at hx
        have hdl := delivered_le dev _ t ht
        have harr : arrivals (es ++ [(tm, .arrive r)]) = arrivals es ++ [tm] := by
          rw [arrivals_append]; rfl
        have hget : ∀ j, j < 3 → ∃ a, (arrivals es)[t.length + j]? = some a := by
          intro j hj
          exact ⟨_, List.getElem?_eq_getElem (by omega)⟩
        obtain ⟨a0, e0⟩ := hget 0 (by omega)
        obtain ⟨a1, e1⟩ := hget 1 (by omega)
        obtain ⟨a2, e2⟩ := hget 2 (by omega)
        have s0 := hsp (t.length + 0) a0 a1 (by rw [harr]; exact get_app e0)
          (by rw [harr]; exact get_app e1)
        have s1 := hsp (t.length + 1) a1 a2 (by rw [harr]; exact get_app e1)
          (by rw [harr]; exact get_app e2)
        have s2 := hsp (t.length + 2) a2 tm (by rw [harr]; exact get_app e2)
          (by rw [harr, List.getElem?_append_right (by omega)]
              have : t.length + 2 + 1 - (arrivals es).length = 0 := by omega
              rw [this]; rfl)
        have htk : (es ++ [(tm, Ev.arrive r)]).take es.length = es := by simp
        have := hsv es.length tm (.arrive r) (by simp) (t.length + 0) a0 (by rw [htk]; exact e0)
          (by unfold frameTime at *; omega)
        rw [htk] at this
        omega
      rw [if_pos hlen]
      exact ho
    · simp only [step, cpu]
      split <;> (try split_ifs) <;> exact ho

/-- The queues filled by the receive loop of `Model/Can` are those of dispatching the delivered frames one
by one (standard frames). -/
theorem rxLoop_dispatch (dev : Nat) (regs : List Can.Reg) (ws : List Can.WireFrame)
    (hs : ∀ w ∈ ws, w.ext = false) : ∀ (g : UInt32) (qs : Can.Queues),
    Can.rxLoop dev regs g (ws.map .frame) qs =
      (ws.map fun w => (⟨dev, w.id, w.data, w.dlc⟩ : CanFrame)).foldl (fun qs f => Can.dispatch regs f qs) qs := by
  induction ws with
  | nil => intro g qs; rfl
  | cons w ws ih =>
    intro g qs
    have h0 := hs w (by simp)
    simp only [List.map_cons, Can.rxLoop, List.foldl_cons, h0]
    exact ih (fun x hx => hs x (by simp [hx])) _ _

/-- A frame with standard identifier `0x0A5`, two bytes of data, as the registers show it. -/
def demo (k : UInt32) : Raw := ⟨0x14A00000, 0x00010002, 0x0100 + k, 0⟩
def junk : Hdr := ⟨1, 2, 3, 4, 5, 6, 7, #v[9, 9, 9, 9, 9, 9, 9, 9]⟩

/-- Concrete: four frames before the interrupt is served: the third is lost, the others arrive; and a frame
that arrives in the middle of reading another does not disturb it. -/
example :
    let late := run 0 (boot junk) ([.arrive (demo 1), .arrive (demo 2), .arrive (demo 3), .arrive (demo 4)] ++
      List.replicate 63 (.cpu junk))
    let amid := run 0 (boot junk) ([.arrive (demo 1)] ++ List.replicate 9 (.cpu junk) ++ [.arrive (demo 2)] ++
      List.replicate 40 (.cpu junk))
    late.delivered.map (fun f => f.data[0]) = [1, 2, 4] ∧ late.overrun = true ∧ late.pc = .idle ∧
    amid.delivered = [⟨0, 0x0A5, #v[1, 1, 0, 0, 0, 0, 0, 0], 2⟩, ⟨0, 0x0A5, #v[2, 1, 0, 0, 0, 0, 0, 0], 2⟩] := by
  decide +kernel

/-- A timed run in which every frame is served in time: five frames back to back, each taken before the next. -/
def timed : List (Nat × Ev) :=
  (List.range 5).flatMap fun i => (47 * i, .arrive (demo 7)) :: List.replicate 20 (47 * i + 10, .cpu junk)

example : Spaced timed ∧ Served 0 junk timed ∧
    (run 0 (boot junk) (timed.map Prod.snd)).delivered.length = 5 := by
  have hl : timed.length = 105 := by decide +kernel
  have hs : ∀ n, n < 5 → ∀ a b, (arrivals timed)[n]? = some a → (arrivals timed)[n + 1]? = some b →
      a + frameTime ≤ b := by
    have : arrivals timed = [0, 47, 94, 141, 188] := by decide +kernel
    rw [this]
    intro n hn a b ha hb
    have : n = 0 ∨ n = 1 ∨ n = 2 ∨ n = 3 ∨ n = 4 := by omega
    rcases this with rfl | rfl | rfl | rfl | rfl <;> simp [frameTime] at ha hb ⊢ <;> omega
  refine ⟨?_, ?_, by decide +kernel⟩
  · intro n a b ha hb
    refine hs n ?_ a b ha hb
    have h5 : (arrivals timed).length = 5 := by decide +kernel
    obtain ⟨h1, -⟩ := List.getElem?_eq_some_iff.mp ha
    omega
  · have hall : ∀ j : Fin 105, ∀ n : Fin 5,
        (match timed[j.val]?, (arrivals (timed.take j))[n.val]? with
        | some (t, _), some a =>
          !decide (a + 3 * frameTime ≤ t) ||
            decide (n.val < (run 0 (boot junk) ((timed.take j).map Prod.snd)).delivered.length)
        | _, _ => true) = true := by decide +kernel
    intro j t e hj n a hn hle
    obtain ⟨hj1, -⟩ := List.getElem?_eq_some_iff.mp hj
    have hn1 : n < 5 := by
      have h5 : (arrivals timed).length = 5 := by decide +kernel
      have h6 : arrivals timed = arrivals (timed.take j) ++ arrivals (timed.drop j) := by
        rw [← arrivals_append, List.take_append_drop]
      have h7 := congrArg List.length h6
      rw [List.length_append] at h7
      obtain ⟨h1, -⟩ := List.getElem?_eq_some_iff.mp hn
      omega
    have := hall ⟨j, by omega⟩ ⟨n, hn1⟩
    simp only [hj, hn] at this
    simpa [hle] using this

end Verif.CanRx
