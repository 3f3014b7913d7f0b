import Verif.Spec.CanFilter
import Mathlib.Data.List.Induction
import Mathlib.Tactic.SplitIfs

set_option autoImplicit false

/-!
# C113: every CAN bus the start-up code configures is heard completely
-/

namespace Verif.CanFilter

/-- What has been configured: the last of CAN1/CAN2 (`some true` is CAN1), and which peripherals. -/
structure Hist where
  last : Option Bool
  c1 : Bool
  c2 : Bool
  c3 : Bool
deriving DecidableEq

/-- Member of a peripheral. -/
def Hist.has (g : Hist) : Dev → Bool
  | .can1 => g.c1
  | .can2 => g.c2
  | .can3 => g.c3

/-- One more. -/
def Hist.add (g : Hist) : Dev → Hist
  | .can1 => { g with last := some true, c1 := true }
  | .can2 => { g with last := some false, c2 := true }
  | .can3 => { g with c3 := true }

/-- The registers after the calls of `g`. -/
def desc (a b c d : Nat → BitVec 32) (g : Hist) : St where
  dual :=
    { fmr := match g.last with
        | none => 0x2A1C0E01#32
        | some true => 0x2A1C0000#32
        | some false => 0x2A1C0100#32
      fm1r := 0
      fs1r := (if g.c1 then 1#32 else 0#32) ||| (if g.c2 then 2#32 else 0#32)
      ffa1r := 0
      fa1r := (if g.c1 then 1#32 else 0#32) ||| (if g.c2 then 2#32 else 0#32)
      fr1 := fun k => if (g.c1 = true ∧ k = 0) ∨ (g.c2 = true ∧ k = 1) then 0 else a k
      fr2 := fun k => if (g.c1 = true ∧ k = 0) ∨ (g.c2 = true ∧ k = 1) then 0 else b k }
  single :=
    { fmr := if g.c3 then 0x2A1C0E00#32 else 0x2A1C0E01#32
      fm1r := 0
      fs1r := if g.c3 then 4#32 else 0#32
      ffa1r := 0
      fa1r := if g.c3 then 4#32 else 0#32
      fr1 := fun k => if g.c3 = true ∧ k = 2 then 0 else c k
      fr2 := fun k => if g.c3 = true ∧ k = 2 then 0 else d k }
  hal := fun e => if g.has e then .listening else .ready
  started := g.has
  fmpie0 := g.has

theorem boot_desc (a b c d : Nat → BitVec 32) : boot a b c d = desc a b c d ⟨none, false, false, false⟩ := by
  simp only [boot, desc, Banks.reset, St.mk.injEq, Banks.mk.injEq]
  simp
  constructor <;> funext e <;> cases e <;> rfl

theorem hz : halves 0 0 = 0 := by decide

theorem write1 (a b c d : Nat → BitVec 32) (g : Hist) (h : g.c1 = false) :
    writeFilter true (filterOf .can1) (desc a b c d g).dual = (desc a b c d (g.add .can1)).dual := by
  obtain ⟨l, c1, c2, c3⟩ := g
  simp only at h
  subst h
  simp only [writeFilter, desc, Hist.add, filterOf, Dev.num, if_true, if_false, Bool.false_eq_true,
    Banks.mk.injEq, hz]
  refine ⟨?_, by decide, ?_, by decide, ?_, ?_, ?_⟩
  · rcases l with _ | _ | _ <;> rfl
  · cases c2 <;> simp only [if_true, Bool.false_eq_true, if_false] <;> decide
  · cases c2 <;> simp only [if_true, Bool.false_eq_true, if_false] <;> decide
  all_goals
    funext k
    unfold upd
    by_cases hk : k = 0 <;> simp [hk]

theorem write2 (a b c d : Nat → BitVec 32) (g : Hist) (h : g.c2 = false) :
    writeFilter true (filterOf .can2) (desc a b c d g).dual = (desc a b c d (g.add .can2)).dual := by
  obtain ⟨l, c1, c2, c3⟩ := g
  simp only at h
  subst h
  simp only [writeFilter, desc, Hist.add, filterOf, Dev.num, if_true, if_false, Bool.false_eq_true,
    Banks.mk.injEq, hz]
  refine ⟨?_, by decide, ?_, by decide, ?_, ?_, ?_⟩
  · rcases l with _ | _ | _ <;> rfl
  · cases c1 <;> simp only [if_true, Bool.false_eq_true, if_false] <;> decide
  · cases c1 <;> simp only [if_true, Bool.false_eq_true, if_false] <;> decide
  all_goals
    funext k
    unfold upd
    by_cases hk : k = 1 <;> simp [hk]

theorem write3 (a b c d : Nat → BitVec 32) (g : Hist) (h : g.c3 = false) :
    writeFilter false (filterOf .can3) (desc a b c d g).single = (desc a b c d (g.add .can3)).single := by
  obtain ⟨l, c1, c2, c3⟩ := g
  simp only at h
  subst h
  simp only [writeFilter, desc, Hist.add, filterOf, Dev.num, if_true, if_false, Bool.false_eq_true,
    Banks.mk.injEq, hz]
  refine ⟨rfl, by decide, rfl, by decide, rfl, ?_, ?_⟩
  all_goals
    funext k
    unfold upd
    by_cases hk : k = 2 <;> simp [hk]

theorem has_add (g : Hist) (e : Dev) : (g.add e).has = upd g.has e true := by
  funext f; unfold upd; cases e <;> cases f <;> simp [Hist.has, Hist.add]

theorem config_desc_ok (a b c d : Nat → BitVec 32) (g : Hist) (e : Dev) (h : g.has e = false) :
    config e true (desc a b c d g) = (desc a b c d (g.add e), true) := by
  have hr : (desc a b c d g).hal e = .ready := by simp [desc, h]
  have hal : upd (desc a b c d g).hal e .listening = (desc a b c d (g.add e)).hal := by
    funext f
    simp only [desc, has_add, upd]
    by_cases hf : f = e <;> simp [hf]
  have hst : upd (desc a b c d g).started e true = (desc a b c d (g.add e)).started := by
    simp only [desc, has_add]
  have hfm : upd (desc a b c d g).fmpie0 e true = (desc a b c d (g.add e)).fmpie0 := by
    simp only [desc, has_add]
  have hs : (desc a b c d (g.add e)).hal e = .listening := by rw [← hal]; simp [upd]
  cases e
  · simp only [config, configFilter, hr, HalState.usable, if_true, start, notifyRx, hal, hst, hs, hfm,
      write1 a b c d g h]
    rfl
  · simp only [config, configFilter, hr, HalState.usable, if_true, start, notifyRx, hal, hst, hs, hfm,
      write2 a b c d g h]
    rfl
  · simp only [config, configFilter, hr, HalState.usable, if_true, start, notifyRx, hal, hst, hs, hfm,
      write3 a b c d g h]
    rfl

theorem config_desc_fail (a b c d : Nat → BitVec 32) (g : Hist) (e : Dev) (ack : Bool)
    (h : ¬(g.has e = false ∧ ack = true)) : (config e ack (desc a b c d g)).2 = false := by
  cases ack <;> cases hg : g.has e <;>
    simp_all [config, configFilter, start, notifyRx, desc, HalState.usable] <;> cases e <;> simp_all

/-- The peripherals configured in a list of calls. -/
def Hist.ofList (g : Hist) (l : List Dev) : Hist := l.foldl Hist.add g

theorem configAll_desc (a b c d : Nat → BitVec 32) (l : List (Dev × Bool)) :
    ∀ (g : Hist) (s : St), configAll l (desc a b c d g) = (s, true) →
      s = desc a b c d (g.ofList (l.map Prod.fst)) ∧ (∀ p ∈ l, p.2 = true ∧ g.has p.1 = false) ∧
        (l.map Prod.fst).Nodup := by
  induction l with
  | nil => intro g s h; simp only [configAll, Prod.mk.injEq, and_true] at h; simp [Hist.ofList, h]
  | cons p l ih =>
    obtain ⟨e, ack⟩ := p
    intro g s h
    by_cases hc : g.has e = false ∧ ack = true
    · obtain ⟨h1, rfl⟩ := hc
      simp only [configAll, config_desc_ok a b c d g e h1] at h
      obtain ⟨h2, h3, h4⟩ := ih _ _ h
      refine ⟨h2, ?_, ?_⟩
      · intro p hp
        rcases List.mem_cons.1 hp with rfl | hp
        · exact ⟨rfl, h1⟩
        · refine ⟨(h3 p hp).1, ?_⟩
          have := (h3 p hp).2
          rw [has_add] at this
          unfold upd at this
          split_ifs at this
          exact this
      · rw [List.map_cons, List.nodup_cons]
        refine ⟨?_, h4⟩
        intro hm
        obtain ⟨p, hp, he⟩ := List.mem_map.1 hm
        have := (h3 p hp).2
        rw [has_add, he] at this
        simp [upd] at this
    · have hf := config_desc_fail a b c d g e ack hc
      simp only [configAll] at h
      rcases hh : config e ack (desc a b c d g) with ⟨s', _ | _⟩
      · rw [hh] at h; simp at h
      · rw [hh] at hf; simp at hf

theorem configAll_ok (a b c d : Nat → BitVec 32) (l : List Dev) :
    ∀ g : Hist, l.Nodup → (∀ e ∈ l, g.has e = false) →
      configAll (l.map fun e => (e, true)) (desc a b c d g) = (desc a b c d (g.ofList l), true) := by
  induction l with
  | nil => intro g _ _; rfl
  | cons e l ih =>
    intro g hn hg
    rw [List.nodup_cons] at hn
    simp only [List.map_cons, configAll, config_desc_ok a b c d g e (hg e (by simp))]
    rw [ih _ hn.2]
    · rfl
    · intro f hf
      rw [has_add]
      unfold upd
      rw [if_neg (by rintro rfl; exact hn.1 hf)]
      exact hg f (by simp [hf])

/-! ### What the configured registers let pass -/

/-- Nothing configured. -/
def none0 : Hist := ⟨none, false, false, false⟩

/-- The last of CAN1/CAN2 is one that was configured. -/
def Hist.ok (g : Hist) : Prop :=
  match g.last with
  | none => g.c1 = false ∧ g.c2 = false
  | some true => g.c1 = true
  | some false => g.c2 = true

theorem ofList_concat (g : Hist) (l : List Dev) (e : Dev) :
    g.ofList (l ++ [e]) = (g.ofList l).add e := by simp [Hist.ofList]

theorem ofList_has (l : List Dev) (e : Dev) : (none0.ofList l).has e = true ↔ e ∈ l := by
  induction l using List.reverseRecOn with
  | nil => cases e <;> simp [Hist.ofList, none0, Hist.has]
  | append_singleton l f ih =>
    rw [ofList_concat, has_add]
    unfold upd
    by_cases h : e = f <;> simp [h, ih]

theorem ofList_ok (l : List Dev) : (none0.ofList l).ok := by
  induction l using List.reverseRecOn with
  | nil => simp [Hist.ofList, none0, Hist.ok]
  | append_singleton l f ih =>
    rw [ofList_concat]
    generalize none0.ofList l = g at ih
    cases f
    · simp [Hist.ok, Hist.add]
    · simp [Hist.ok, Hist.add]
    · exact ih

theorem sublist_concat_iff (l m : List Dev) (e : Dev) :
    l.Sublist (m ++ [e]) ↔ l.Sublist m ∨ ∃ r, l = r ++ [e] ∧ r.Sublist m := by
  rw [List.sublist_append_iff]
  constructor
  · rintro ⟨l1, l2, rfl, h1, h2⟩
    rcases List.sublist_cons_iff.1 h2 with h | ⟨r, rfl, h⟩
    · rw [List.sublist_nil.1 h]; simp [h1]
    · rw [List.sublist_nil.1 h]; exact Or.inr ⟨l1, rfl, h1⟩
  · rintro (h | ⟨r, rfl, h⟩)
    · exact ⟨l, [], by simp, h, List.nil_sublist _⟩
    · exact ⟨r, [e], rfl, h, List.Sublist.refl _⟩

theorem ofList_before (l : List Dev) (hn : l.Nodup) :
    ((none0.ofList l).c1 = true ∧ (none0.ofList l).last = some false) ↔ Before l := by
  induction l using List.reverseRecOn with
  | nil => simp [Hist.ofList, none0, Before]
  | append_singleton l f ih =>
    have hl : l.Nodup := (List.nodup_append.1 hn).1
    have hf : f ∉ l := by
      intro h
      exact (List.nodup_append.1 hn).2.2 f h f (by simp) rfl
    have h1 : (none0.ofList l).c1 = true ↔ Dev.can1 ∈ l := ofList_has l .can1
    rw [ofList_concat, Before, sublist_concat_iff]
    cases f
    · simp only [Hist.add, Option.some.injEq, Bool.true_eq_false, and_false, false_iff]
      rintro (h | ⟨r, h, _⟩)
      · exact hf (h.subset (by simp))
      · have := congrArg List.getLast? h
        simp at this
    · simp only [Hist.add, and_true, h1]
      constructor
      · intro h
        exact Or.inr ⟨[.can1], rfl, List.singleton_sublist.2 h⟩
      · rintro (h | ⟨r, h, hr⟩)
        · exact h.subset (by simp)
        · have : r = [.can1] := by
            have := List.append_cancel_right (as := [Dev.can1]) (bs := [Dev.can2]) (cs := r) h
            exact this.symm
          subst this
          exact hr.subset (by simp)
    · have : (none0.ofList l).add .can3 = { none0.ofList l with c3 := true } := rfl
      rw [this]
      constructor
      · intro h
        exact Or.inl ((ih hl).1 h)
      · rintro (h | ⟨r, h, _⟩)
        · exact (ih hl).2 h
        · have := congrArg List.getLast? h
          simp at this

section
variable (a b c d : Nat → BitVec 32)

theorem slaveStart_desc (g : Hist) : (desc a b c d g).dual.slaveStart =
    match g.last with | none => 14 | some true => 0 | some false => 1 := by
  rcases g with ⟨_ | _ | _, c1, c2, c3⟩ <;> simp only [desc, Banks.slaveStart] <;> decide

theorem two_bit (k : Nat) : (2#32).getLsbD k = decide (k = 1) := by
  have : (2#32) = BitVec.twoPow 32 1 := by decide
  rw [this, BitVec.getLsbD_twoPow]
  by_cases h : k = 1 <;> simp [h, eq_comm]

theorem four_bit (k : Nat) : (4#32).getLsbD k = decide (k = 2) := by
  have : (4#32) = BitVec.twoPow 32 2 := by decide
  rw [this, BitVec.getLsbD_twoPow]
  by_cases h : k = 2 <;> simp [h, eq_comm]

theorem one_bit (k : Nat) : (1#32).getLsbD k = decide (k = 0) := by
  have : (1#32) = BitVec.twoPow 32 0 := by decide
  rw [this, BitVec.getLsbD_twoPow]
  by_cases h : k = 0 <;> simp [h, eq_comm]

theorem fa_dual (g : Hist) (k : Nat) :
    (desc a b c d g).dual.fa1r.getLsbD k = decide ((g.c1 = true ∧ k = 0) ∨ (g.c2 = true ∧ k = 1)) := by
  simp only [desc, BitVec.getLsbD_or]
  rcases g with ⟨l, _ | _, _ | _, c3⟩ <;> simp [two_bit]

theorem fa_single (g : Hist) (k : Nat) :
    (desc a b c d g).single.fa1r.getLsbD k = decide (g.c3 = true ∧ k = 2) := by
  rcases g with ⟨l, c1, c2, _ | _⟩ <;> simp [desc, four_bit]

theorem pass_dual (g : Hist) (k : Nat) (h : Header)
    (hk : (g.c1 = true ∧ k = 0) ∨ (g.c2 = true ∧ k = 1)) : (desc a b c d g).dual.pass k h = true := by
  have hf := fa_dual a b c d g k
  have hs : (desc a b c d g).dual.fs1r.getLsbD k = true := by
    rw [show (desc a b c d g).dual.fs1r = (desc a b c d g).dual.fa1r from rfl, hf, decide_eq_true hk]
  have hm : (desc a b c d g).dual.fm1r.getLsbD k = false := by simp [desc]
  have h2 : (desc a b c d g).dual.fr2 k = 0 := by simp only [desc, if_pos hk]
  simp [Banks.pass, hs, hm, h2]

theorem pass_single (g : Hist) (k : Nat) (h : Header) (hk : g.c3 = true ∧ k = 2) :
    (desc a b c d g).single.pass k h = true := by
  have hf := fa_single a b c d g k
  have hs : (desc a b c d g).single.fs1r.getLsbD k = true := by
    rw [show (desc a b c d g).single.fs1r = (desc a b c d g).single.fa1r from rfl, hf, decide_eq_true hk]
  have hm : (desc a b c d g).single.fm1r.getLsbD k = false := by simp [desc]
  have h2 : (desc a b c d g).single.fr2 k = 0 := by simp only [desc, if_pos hk]
  simp [Banks.pass, hs, hm, h2]

theorem hears_of (g : Hist) (e : Dev) (k : Nat) (hg : g.has e = true)
    (hl : (desc a b c d g).listens e = true) (hm : ∀ h, (desc a b c d g).matches e k h = true) :
    Hears (desc a b c d g) e := by
  refine ⟨hg, hl, fun h => ⟨⟨k, hm h⟩, fun j _ => ?_⟩⟩
  cases e <;> simp [St.banks, desc]

theorem hears3 (g : Hist) : Hears (desc a b c d g) .can3 ↔ g.c3 = true := by
  constructor
  · intro h; exact h.1
  · intro h
    refine hears_of a b c d g .can3 2 h ?_ ?_
    · simp [St.listens, St.banks, desc, Hist.has, h]
    · intro x
      simp only [St.matches, St.owns, St.banks, fa_single, pass_single a b c d g 2 x ⟨h, rfl⟩, h]
      decide

theorem listens_dual (g : Hist) (e : Dev) (h : g.has e = true) (he : e ≠ .can3) (hl : g.last ≠ none) :
    (desc a b c d g).listens e = true := by
  rcases g with ⟨_ | _ | _, c1, c2, c3⟩
  · exact absurd rfl hl
  · cases e <;> simp_all [St.listens, St.banks, desc]
  · cases e <;> simp_all [St.listens, St.banks, desc]

theorem hears2 (g : Hist) (ho : g.ok) : Hears (desc a b c d g) .can2 ↔ g.c2 = true := by
  constructor
  · intro h; exact h.1
  · intro h
    have hl : g.last ≠ none := by
      intro hn; simp only [Hist.ok, hn] at ho; rw [h] at ho; exact absurd ho.2 (by decide)
    refine hears_of a b c d g .can2 1 h (listens_dual a b c d g .can2 h (by decide) hl) ?_
    intro x
    have hs : (desc a b c d g).dual.slaveStart ≤ 1 := by
      rw [slaveStart_desc]
      rcases g with ⟨_ | _ | _, c1, c2, c3⟩
      · exact absurd rfl hl
      · simp
      · simp
    simp only [St.matches, St.owns, St.banks, fa_dual, pass_dual a b c d g 1 x (Or.inr ⟨h, rfl⟩), h]
    simp [hs]

theorem hears1 (g : Hist) : (g.c1 = true ∧ g.last = some false) → Hears (desc a b c d g) .can1 := by
  rintro ⟨h, hl⟩
  refine hears_of a b c d g .can1 0 h (listens_dual a b c d g .can1 h (by decide) (by simp [hl])) ?_
  intro x
  have hs : (desc a b c d g).dual.slaveStart = 1 := by rw [slaveStart_desc, hl]
  simp only [St.matches, St.owns, St.banks, fa_dual, pass_dual a b c d g 0 x (Or.inl ⟨h, rfl⟩), h, hs]
  simp

theorem deaf1 (g : Hist) (ho : g.ok) (hn : ¬(g.c1 = true ∧ g.last = some false)) :
    Deaf (desc a b c d g) .can1 := by
  intro h k
  simp only [St.matches, St.owns, St.banks, fa_dual, slaveStart_desc]
  rcases g with ⟨_ | _ | _, c1, c2, c3⟩
  · simp only [Hist.ok] at ho
    obtain ⟨rfl, rfl⟩ := ho
    simp
  · cases c1 <;> simp_all
  · simp

end

/-- **C113.** After the three `CAN_Config` calls of the start-up code have succeeded, whatever the filter
banks held before, every frame on each of the three buses — any identifier, standard or extended, data or
remote — is received into the FIFO whose interrupt is enabled. And with acknowledging hardware the three
calls do succeed. -/
theorem C113_every_bus_heard (a b c d : Nat → BitVec 32) :
    (∃ s, configAll (shippedOrder.map fun e => (e, true)) (boot a b c d) = (s, true)) ∧
    ∀ (acks : List (Dev × Bool)) (s : St), acks.map Prod.fst = shippedOrder →
      configAll acks (boot a b c d) = (s, true) → ∀ e, Hears s e := by
  rw [boot_desc]
  refine ⟨⟨_, configAll_ok a b c d shippedOrder _ (by decide) (fun e _ => by cases e <;> rfl)⟩, ?_⟩
  intro acks s ho hs e
  obtain ⟨rfl, -, -⟩ := configAll_desc a b c d acks _ s hs
  rw [ho]
  cases e
  · exact hears1 a b c d _ (by decide)
  · exact (hears2 a b c d _ (ofList_ok shippedOrder)).2 (by decide)
  · exact (hears3 a b c d _).2 (by decide)

/-- **C113, exactly.** For any successful sequence of `CAN_Config` calls: CAN2 and CAN3 are heard exactly
when they were configured; CAN1 is heard exactly when it was configured and CAN2 was configured *later* —
otherwise not one frame of its bus is received, although every call returned OK. -/
theorem C113_order_matters (a b c d : Nat → BitVec 32) (calls : List (Dev × Bool)) (s : St)
    (h : configAll calls (boot a b c d) = (s, true)) :
    (Hears s .can2 ↔ .can2 ∈ calls.map Prod.fst) ∧ (Hears s .can3 ↔ .can3 ∈ calls.map Prod.fst) ∧
    (Before (calls.map Prod.fst) → Hears s .can1) ∧
    (¬ Before (calls.map Prod.fst) → Deaf s .can1 ∧ ¬ Hears s .can1) := by
  rw [boot_desc] at h
  obtain ⟨rfl, -, hn⟩ := configAll_desc a b c d calls _ s h
  have hb := ofList_before _ hn
  refine ⟨?_, ?_, ?_, ?_⟩
  · rw [← ofList_has]; exact hears2 a b c d _ (ofList_ok _)
  · rw [← ofList_has]; exact hears3 a b c d _
  · intro hbf; exact hears1 a b c d _ (hb.2 hbf)
  · intro hbf
    have hd := deaf1 a b c d _ (ofList_ok _) (fun x => hbf (hb.1 x))
    refine ⟨hd, fun hh => ?_⟩
    obtain ⟨⟨k, hk⟩, -⟩ := hh.2.2 ⟨false, 0, false⟩
    have := hd ⟨false, 0, false⟩ k
    rw [show (⟨none, false, false, false⟩ : Hist) = none0 from rfl] at hk
    rw [this] at hk
    cases hk

/-- Concrete: with the two calls swapped all three succeed and CAN1 (inverter and BMS) is deaf. -/
example : (configAll [(.can2, true), (.can1, true), (.can3, true)]
      (boot (fun _ => 0) (fun _ => 0) (fun _ => 0) (fun _ => 0))).2 = true ∧
    (configAll [(.can2, true), (.can1, true), (.can3, true)]
      (boot (fun _ => 0) (fun _ => 0) (fun _ => 0) (fun _ => 0))).1.matches .can1 0 ⟨false, 0xA5, false⟩ =
        false ∧
    (configAll [(.can1, true), (.can2, true), (.can3, true)]
      (boot (fun _ => 0) (fun _ => 0) (fun _ => 0) (fun _ => 0))).1.matches .can1 0 ⟨false, 0xA5, false⟩ =
        true := by decide +kernel

end Verif.CanFilter
