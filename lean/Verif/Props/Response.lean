import Verif.Spec.Response
import Verif.Props.VehicleFault

set_option autoImplicit false

/-!
# C123: how long torque lasts after a fault
-/

namespace Verif.Vehicle
open InvDrv FaultSpec

theorem Documented.fault {cfg : Config} {bad : VData → Prop} {n : Nat} (hd : Documented cfg bad n)
    {h : List VData} (hh : HeldFor bad n h) : DriveFault cfg 10 h := by
  have one : ∀ {p : VData → Prop}, HeldFor p 1 h → ∃ d ∈ h, p d := by
    rintro p ⟨a, b, c, rfl, h1, h2⟩
    obtain ⟨d, rfl⟩ := List.length_eq_one_iff.mp h1
    exact ⟨d, by simp, h2 d (by simp)⟩
  cases hd with
  | accelRange => exact .inl hh
  | accelDisagree => exact .inr (.inl hh)
  | brakeRange => exact .inr (.inr (.inl hh))
  | pedalAbuse => exact .inr (.inr (.inr (.inl hh)))
  | cellTemp => exact .inr (.inr (.inr (.inr (.inl hh))))
  | current => exact .inr (.inr (.inr (.inr (.inr (.inl hh)))))
  | cellVolt => exact .inr (.inr (.inr (.inr (.inr (.inr (.inl hh))))))
  | lowSoc => exact .inr (.inr (.inr (.inr (.inr (.inr (.inr (.inl (one hh))))))))
  | bms => exact .inr (.inr (.inr (.inr (.inr (.inr (.inr (.inr (one hh))))))))

theorem Documented.pos {cfg : Config} {bad : VData → Prop} {n : Nat} (hd : Documented cfg bad n) :
    0 < n := by
  cases hd <;> exact Nat.succ_pos _

/-! ## Cutting histories -/

theorem filter_split (p q r : Nat × Ev → Bool) : ∀ (H : Hist), Ordered H →
    (∀ e, r e = (p e || q e)) → (∀ e, ¬ (p e = true ∧ q e = true)) →
    (∀ e f, e.1 ≤ f.1 → p f = true → q e = true → False) →
    H.filter r = H.filter p ++ H.filter q
  | [], _, _, _, _ => rfl
  | e :: H, ho, hr, hd, hx => by
      have hoH : Ordered H := (List.pairwise_cons.mp ho).2
      have ih := filter_split p q r H hoH hr hd hx
      cases hp : p e with
      | true =>
          have hq : q e = false := by
            cases hq : q e with
            | false => rfl
            | true => exact absurd ⟨hp, hq⟩ (hd e)
          rw [List.filter_cons_of_pos (by rw [hr, hp]; rfl), List.filter_cons_of_pos hp,
            List.filter_cons_of_neg (by simp [hq]), ih, List.cons_append]
      | false =>
          cases hq : q e with
          | false =>
              rw [List.filter_cons_of_neg (by rw [hr, hp, hq]; simp), List.filter_cons_of_neg (by simp [hp]),
                List.filter_cons_of_neg (by simp [hq]), ih]
          | true =>
              have hnil : H.filter p = [] := by
                rw [List.filter_eq_nil_iff]
                intro f hf hpf
                exact hx e f ((List.pairwise_cons.mp ho).1 f hf) hpf hq
              rw [List.filter_cons_of_pos (by rw [hr, hp, hq]; rfl), List.filter_cons_of_neg (by simp [hp]),
                List.filter_cons_of_pos hq, ih, hnil, List.nil_append, List.nil_append]

theorem before_split {H : Hist} (ho : Ordered H) {a b : Nat} (h : a ≤ b) :
    before H b = before H a ++ during H a b := by
  refine filter_split _ _ _ H ho ?_ ?_ ?_
  · intro e
    rw [Bool.eq_iff_iff]
    simp
    omega
  · intro e; simp; omega
  · intro e f; simp; omega

/-- The part from time `t` on. -/
def since (H : Hist) (t : Nat) : Hist := H.filter (fun e => t ≤ e.1)

theorem since_split {H : Hist} (ho : Ordered H) (t : Nat) : H = before H t ++ since H t := by
  have : H = H.filter (fun _ => true) := by rw [List.filter_eq_self.mpr (fun _ _ => rfl)]
  refine this.trans (filter_split _ _ _ H ho ?_ ?_ ?_)
  · intro e
    rw [Bool.eq_iff_iff]
    simp
    omega
  · intro e; simp
  · intro e f; simp; omega

theorem run_append {s s' s'' : St} {a b : List Ev} {f g : List Sent} (h1 : run s a = .ok (s', f))
    (h2 : run s' b = .ok (s'', g)) : run s (a ++ b) = .ok (s'', f ++ g) := by
  induction a generalizing s f with
  | nil => cases h1; exact h2
  | cons e a ih =>
      obtain ⟨s1, f1, f2, q1, q2, rfl⟩ := run_cons h1
      have := ih q2
      simp only [List.cons_append, run, q1, this, List.append_assoc]

theorem run_split {s s'' : St} {a b : List Ev} {f : List Sent} (h : run s (a ++ b) = .ok (s'', f)) :
    ∃ s' f1 f2, run s a = .ok (s', f1) ∧ run s' b = .ok (s'', f2) ∧ f = f1 ++ f2 := by
  induction a generalizing s f with
  | nil => exact ⟨s, [], f, rfl, h, rfl⟩
  | cons e a ih =>
      obtain ⟨s1, f1, f2, q1, q2, rfl⟩ := run_cons h
      obtain ⟨s', g1, g2, r1, r2, rfl⟩ := ih q2
      exact ⟨s', f1 ++ g1, g2, by simp only [run, q1, r1], r2, by rw [List.append_assoc]⟩

theorem copies_append {s s' : St} {a b : List Ev} {f : List Sent} (h1 : run s a = .ok (s', f)) :
    copies s (a ++ b) = copies s a ++ copies s' b := by
  induction a generalizing s f with
  | nil => cases h1; rfl
  | cons e a ih =>
      obtain ⟨s1, f1, f2, q1, q2, rfl⟩ := run_cons h1
      simp only [List.cons_append, copies, q1, ih q2, List.append_assoc]

/-- Without a copy the state manager stays between two steps. -/
theorem quiet_run {s s' : St} {es : List Ev} {f : List Sent} (hs : s.status = none ∧ s.pending = [])
    (hno : ∀ ok, Ev.copy ok ∉ es) (h : run s es = .ok (s', f)) :
    (s'.status = none ∧ s'.pending = []) ∧ copies s es = [] := by
  induction es generalizing s f with
  | nil => cases h; exact ⟨hs, rfl⟩
  | cons e es ih =>
      obtain ⟨s1, f1, f2, q1, q2, rfl⟩ := run_cons h
      have hq : s1.status = none ∧ s1.pending = [] := by
        by_cases hpc : e.isPc = true
        · obtain ⟨-, hsd, -⟩ := pc_step hpc q1
          exact ⟨by rw [hsd.status]; exact hs.1, by rw [hsd.pending]; exact hs.2⟩
        cases e with
        | pcBatch b c => exact absurd rfl hpc
        | pcAct l => exact absurd rfl hpc
        | copy ok => exact absurd List.mem_cons_self (hno ok)
        | handle ok => simp only [step, hs.1] at q1; cases q1; exact hs
        | write v => simp only [step] at q1; cases q1; exact hs
        | call en => simp only [step, hs.2] at q1; cases q1; exact hs
        | throttle ok en =>
            simp only [step] at q1
            split at q1
            · cases q1
            · cases q1; exact hs
      obtain ⟨h1, h2⟩ := ih hq (fun ok hm => hno ok (List.mem_cons_of_mem _ hm)) q2
      refine ⟨h1, ?_⟩
      simp only [copies, q1, h2, List.append_nil]
      cases e with
      | copy ok => exact absurd List.mem_cons_self (hno ok)
      | _ => rfl

/-- Without a copy event there is no sample. -/
theorem no_copies {s s' : St} {es : List Ev} {f : List Sent}
    (hno : ∀ ok, Ev.copy ok ∉ es) (h : run s es = .ok (s', f)) : copies s es = [] := by
  induction es generalizing s f with
  | nil => rfl
  | cons e es ih =>
      obtain ⟨s1, f1, f2, q1, q2, rfl⟩ := run_cons h
      have h2 := ih (fun ok hm => hno ok (List.mem_cons_of_mem _ hm)) q2
      simp only [copies, q1, h2, List.append_nil]
      cases e with
      | copy ok => exact absurd List.mem_cons_self (hno ok)
      | _ => rfl

/-- One period: where the copy falls, and what it takes. -/
theorem period {P K : Nat} {s0 s : St} {H : Hist} {fs : List Sent} (ho : Ordered H)
    (hk : KeepsUp P K s0 H) {k : Nat} (hkK : k < K)
    (hall : ∃ s fs, run s0 (events H) = .ok (s, fs))
    (hs : run s0 (events (before H (k * P))) = .ok (s, fs)) :
    ∃ a b sc s' g1 g2 g3 pre t post,
      events (before H ((k + 1) * P)) = events (before H (k * P)) ++ a ++ .copy true :: b ∧
      run s a = .ok (sc, g1) ∧ (sc.status = none ∧ sc.pending = []) ∧
      run sc (.copy true :: b) = .ok (s', g2) ∧
      run s0 (events (before H ((k + 1) * P))) = .ok (s', g3) ∧
      copies s0 (events (before H (k * P)) ++ a) = copies s0 (events (before H (k * P))) ∧
      copies s0 (events (before H ((k + 1) * P))) =
        copies s0 (events (before H (k * P))) ++ [some sc.vd] ∧
      H = pre ++ (t, .copy true) :: post ∧ k * P ≤ t ∧ t < (k + 1) * P ∧
      events pre = events (before H (k * P)) ++ a := by
  obtain ⟨hrest, hper⟩ := hk k hkK.le s fs hs
  obtain ⟨a, b, hab, hno⟩ := hper hkK
  have hle : k * P ≤ (k + 1) * P := Nat.mul_le_mul_right _ (Nat.le_succ k)
  have hsplit := before_split ho hle
  -- the events of the period
  have hev : events (before H ((k + 1) * P)) = events (before H (k * P)) ++ a ++ .copy true :: b := by
    rw [hsplit, events, List.map_append]
    change events (before H (k * P)) ++ events (during H (k * P) ((k + 1) * P)) = _
    rw [hab, List.append_assoc]
  -- the run
  obtain ⟨sf, ff, hrun⟩ := hall
  have hH := since_split ho ((k + 1) * P)
  have hevH : events H = events (before H ((k + 1) * P)) ++ events (since H ((k + 1) * P)) := by
    conv_lhs => rw [hH]
    exact List.map_append
  rw [hevH] at hrun
  obtain ⟨s', g3, g4, r1, -, -⟩ := run_split hrun
  have r1' := r1
  rw [hev, List.append_assoc] at r1'
  obtain ⟨s2, e1, e2, r2, r3, -⟩ := run_split r1'
  rw [hs] at r2
  cases r2
  obtain ⟨sc, e3, e4, r4, r5, -⟩ := run_split r3
  obtain ⟨hq, hca⟩ := quiet_run ⟨hrest.status, hrest.pending⟩ (fun ok => (hno ok).1) r4
  -- the time of the copy
  obtain ⟨da, dc, hda, hdaa, hdc⟩ := List.map_eq_append_iff.mp hab
  obtain ⟨x, db, rfl, hx, hdb⟩ := List.map_eq_cons_iff.mp hdc
  have hxm : x ∈ during H (k * P) ((k + 1) * P) := by rw [hda]; simp
  have hxt : k * P ≤ x.1 ∧ x.1 < (k + 1) * P := by
    have := (List.mem_filter.mp hxm).2
    simpa using this
  have hcop : copies s0 (events (before H (k * P)) ++ a) = copies s0 (events (before H (k * P))) := by
    rw [copies_append hs, hca, List.append_nil]
  refine ⟨a, b, sc, s', e3, e4, g3, before H (k * P) ++ da, x.1, db ++ since H ((k + 1) * P), hev, r4, hq,
    r5, r1, hcop, ?_, ?_, hxt.1, hxt.2, ?_⟩
  · obtain ⟨sd, h1, h2, p1, p2, -⟩ := run_cons r5
    rw [hev, List.append_assoc, copies_append hs, copies_append r4, hca, List.nil_append]
    congr 1
    simp only [copies, p1]
    rw [no_copies (fun ok => (hno ok).2) p2, List.append_nil]
    simp only [copied]
    rw [if_pos hq]
    rfl
  · have hxe : x = (x.1, Ev.copy true) := by rw [← hx]
    rw [← hxe]
    conv_lhs => rw [hH, hsplit, hda]
    simp
  · simp only [events, List.map_append, hdaa]

/-- The runs up to the timer interrupts exist. -/
theorem at_interrupt {s0 : St} {H : Hist} (ho : Ordered H) (hall : ∃ s fs, run s0 (events H) = .ok (s, fs))
    (t : Nat) : ∃ s fs, run s0 (events (before H t)) = .ok (s, fs) := by
  obtain ⟨sf, ff, hrun⟩ := hall
  have hevH : events H = events (before H t) ++ events (since H t) := by
    conv_lhs => rw [since_split ho t]
    exact List.map_append
  rw [hevH] at hrun
  obtain ⟨s', g3, g4, r1, -, -⟩ := run_split hrun
  exact ⟨s', g3, r1⟩

/-- Frames by time. -/
theorem frames_append {s s' : St} {A B : Hist} {f : List Sent} (h : run s (events A) = .ok (s', f)) :
    frames s (A ++ B) = frames s A ++ frames s' B := by
  induction A generalizing s f with
  | nil => cases h; rfl
  | cons e A ih =>
      obtain ⟨t, e⟩ := e
      obtain ⟨s1, f1, f2, q1, q2, rfl⟩ := run_cons (es := events A) h
      simp only [List.cons_append, frames, q1, ih q2, List.append_assoc]

theorem frames_map {s s' : St} {A : Hist} {f : List Sent} (h : run s (events A) = .ok (s', f)) :
    (frames s A).map (·.2) = f := by
  induction A generalizing s f with
  | nil => cases h; rfl
  | cons e A ih =>
      obtain ⟨t, e⟩ := e
      obtain ⟨s1, f1, f2, q1, q2, rfl⟩ := run_cons (es := events A) h
      simp only [frames, q1, List.map_append, ih q2, List.map_map]
      congr 1
      exact List.map_id _

theorem frames_time {A : Hist} : ∀ {s : St} {x : Nat × Sent}, x ∈ frames s A → ∃ e, (x.1, e) ∈ A := by
  induction A with
  | nil => intro s x h; simp [frames] at h
  | cons e A ih =>
      obtain ⟨t, e⟩ := e
      intro s x h
      simp only [frames] at h
      split at h
      · simp at h
      · rcases List.mem_append.mp h with h | h
        · obtain ⟨f, -, rfl⟩ := List.mem_map.mp h
          exact ⟨e, List.mem_cons_self⟩
        · obtain ⟨e', he⟩ := ih h
          exact ⟨e', List.mem_cons_of_mem _ he⟩

variable (cfg : Config) (sm : StateMgr.StateManager) (dec : MsgFrame.Dec) (buf : Nat → UInt8)
  (ecu control : Bool)

/-- **C123.** Let the timer interrupts come every `P`, and let state manager and throttle task keep
up with them for `K` periods. If the vehicle data show a documented drive fault that counts after
`n` samples from a time `t` on for `n + 1` periods, then every command frame handed to the CAN layer
at `t + (n + 2) P` or later has torque zero. -/
theorem C123_torque_ends_in_time
    (hsm : StateMgr.smInit true true true (StateMgr.wired cfg) = .ok (.ok, sm))
    (hl : inputSamples cfg 10 ≤ 65535) (hlb : bmsSamples cfg 10 ≤ 65535)
    (P K : Nat) (hP : 0 < P) (H : Hist) (ho : Ordered H) (hK : ∀ x ∈ H, x.1 < K * P)
    (hf : FloatWrites (events H))
    (hrun : ∃ s fs, run (start sm dec buf ecu control) (events H) = .ok (s, fs))
    (hkeep : KeepsUp P K (start sm dec buf ecu control) H)
    (bad : VData → Prop) (n : Nat) (hd : Documented cfg bad n) (t : Nat) (ht : P ≤ t)
    (hbad : Shows bad t (t + (n + 1) * P) (start sm dec buf ecu control) H) :
    ∀ x ∈ frames (start sm dec buf ecu control) H, t + (n + 2) * P ≤ x.1 →
      Drive.torqueOf x.2 = 0 := by
  intro x hx hxt
  set s0 := start sm dec buf ecu control with hs0
  -- the first timer interrupt from `t` on
  obtain ⟨k, hk1, hk2⟩ : ∃ k, t ≤ k * P ∧ k * P < t + P := by
    refine ⟨(t + P - 1) / P, ?_, ?_⟩
    · have := Nat.lt_div_mul_add (a := t + P - 1) hP
      omega
    · have := Nat.div_mul_le_self (t + P - 1) P
      omega
  have hk0 : 0 < k := by
    rcases Nat.eq_zero_or_pos k with rfl | h
    · simp at hk1; omega
    · exact h
  have hlast : (k + n + 1) * P < t + (n + 2) * P := by
    have e1 : (k + n + 1) * P = k * P + (n + 1) * P := by ring
    have e2 : t + (n + 2) * P = t + P + (n + 1) * P := by ring
    omega
  have hKk : k + n + 1 ≤ K := by
    obtain ⟨e, he⟩ := frames_time hx
    have h1 := hK _ he
    dsimp only at h1
    have h2 : (k + n + 1) * P < K * P := by omega
    exact (Nat.lt_of_mul_lt_mul_right h2).le
  have hn := hd.pos
  -- the samples of the periods from `k` on
  have samples : ∀ i, i ≤ n → ∃ ds : List VData, ds.length = i ∧ (∀ d ∈ ds, bad d) ∧
      copies s0 (events (before H ((k + i) * P))) =
        copies s0 (events (before H (k * P))) ++ ds.map some := by
    intro i
    induction i with
    | zero => intro _; exact ⟨[], rfl, by simp, by simp⟩
    | succ i ih =>
        intro hi
        obtain ⟨ds, l1, l2, l3⟩ := ih (by omega)
        obtain ⟨s, fs, hs⟩ := at_interrupt ho hrun ((k + i) * P)
        obtain ⟨a, b, sc, s', g1, g2, g3, pre, tc, post, p1, p2, p3, p4, p5, p6, p7, p8, p9, p10, p11⟩ :=
          period ho hkeep (by omega) hrun hs
        refine ⟨ds ++ [sc.vd], by simp [l1], ?_, ?_⟩
        · intro d hdm
          rcases List.mem_append.mp hdm with h | h
          · exact l2 d h
          · rw [List.mem_singleton] at h
            subst h
            refine hbad pre tc _ post p8 ?_ ?_ sc (fs ++ g1) ?_
            · have : k * P ≤ (k + i) * P := Nat.mul_le_mul_right _ (by omega)
              omega
            · have h1 : (k + i + 1) * P ≤ (k + n) * P := Nat.mul_le_mul_right _ (by omega)
              have h2 : (k + n) * P = k * P + n * P := by ring
              have h3 : t + (n + 1) * P = t + P + n * P := by ring
              omega
            · rw [p11]; exact run_append hs p2
        · rw [← Nat.add_assoc, p7, l3, List.map_append, List.append_assoc]
          rfl
  -- the step that sees the fault
  obtain ⟨m, rfl⟩ : ∃ m, n = m + 1 := ⟨n - 1, by omega⟩
  obtain ⟨ds, l1, l2, l3⟩ := samples m (by omega)
  obtain ⟨s, fs, hs⟩ := at_interrupt ho hrun ((k + m) * P)
  obtain ⟨a, b, sc, s', g1, g2, g3, pre, tc, post, p1, p2, p3, p4, p5, p6, p7, p8, p9, p10, p11⟩ :=
    period ho hkeep (by omega) hrun hs
  have hbadc : bad sc.vd := by
    refine hbad pre tc _ post p8 ?_ ?_ sc (fs ++ g1) ?_
    · have : k * P ≤ (k + m) * P := Nat.mul_le_mul_right _ (by omega)
      omega
    · have h1 : (k + m + 1) * P = k * P + (m + 1) * P := by ring
      have h3 : t + (m + 1 + 1) * P = t + P + (m + 1) * P := by ring
      omega
    · rw [p11]; exact run_append hs p2
  -- a sample was taken before
  have hne : copies s0 (events (before H ((k + m) * P)) ++ a) ≠ [] := by
    rw [p6, l3]
    intro h0
    have h0 := (List.append_eq_nil_iff.mp h0).1
    obtain ⟨sp, fp, hsp⟩ := at_interrupt ho hrun ((k - 1) * P)
    obtain ⟨_, _, _, _, _, _, _, _, _, _, -, -, -, -, -, -, q, -⟩ :=
      period ho hkeep (k := k - 1) (by omega) hrun hsp
    rw [show k - 1 + 1 = k by omega, h0] at q
    simp at q
  -- the step that acts on it
  obtain ⟨hr', -⟩ := hkeep (k + m + 1) (by omega) s' g3 p5
  obtain ⟨a2, b2, sc2, s3, g4, g5, g6, pre2, tc2, post2, q1, q2, q3, q4, q5, q6, q7, q8, q9, q10, q11⟩ :=
    period ho hkeep (k := k + m + 1) (by omega) hrun p5
  obtain ⟨hr3, -⟩ := hkeep (k + m + 2) (by omega) s3 g6 q5
  -- the rest
  have hH := since_split ho ((k + m + 2) * P)
  obtain ⟨sf, ff, hfull⟩ := hrun
  have hevH : events H = events (before H ((k + m + 2) * P)) ++ events (since H ((k + m + 2) * P)) := by
    conv_lhs => rw [hH]
    exact List.map_append
  rw [hevH] at hfull
  obtain ⟨s3', g7, g8, r1, r2, -⟩ := run_split hfull
  rw [show k + m + 2 = k + m + 1 + 1 from rfl, q5] at r1
  cases r1
  have hq23 : run sc (.copy true :: (b ++ a2)) = .ok (sc2, g2 ++ g4) := run_append (a := .copy true :: b) p4 q2
  have key := seen_fault_ends_torque cfg sm dec buf ecu control hsm hl hlb
    (events (before H ((k + m) * P)) ++ a) (b ++ a2) b2 (events (since H ((k + m + 2) * P))) true
    sc sc2 s3 sf (fs ++ g1) (g2 ++ g4) g5 g8
    (by
      intro v hv
      refine hf v ?_
      rw [hevH, show k + m + 2 = k + m + 1 + 1 from rfl, q1, p1]
      simp only [List.mem_append, List.mem_cons] at hv ⊢
      tauto)
    (run_append hs p2) hne
    (hd.fault ⟨(copies s0 (events (before H (k * P)))).filterMap id, ds ++ [sc.vd], [], by
        rw [p6, l3, List.filterMap_append]
        simp [List.filterMap_map], by simp [l1], by
        intro d hdm
        rcases List.mem_append.mp hdm with h | h
        · exact l2 d h
        · rw [List.mem_singleton] at h; subst h; exact hbadc⟩)
    p3 hq23 q3 q4 ⟨hr3.status, hr3.pending⟩ r2
  have hzero := key.2.2 hr3.throttle
  -- the frame comes late
  rw [hH, show k + m + 2 = k + m + 1 + 1 from rfl, frames_append q5] at hx
  rcases List.mem_append.mp hx with hx | hx
  · obtain ⟨e, he⟩ := frames_time hx
    have := (List.mem_filter.mp he).2
    simp at this
    have h2 : k + (m + 1) + 1 = k + m + 1 + 1 := by omega
    rw [h2] at hlast
    omega
  · refine hzero x.2 ?_
    rw [← frames_map r2]
    exact List.mem_map_of_mem hx

/-! ## A timed drive -/

/-- A period of 10 ms (times in microseconds): new data, one activation of the throttle task with
`n` accesses, one step of the state manager. -/
def busy (k n : Nat) (d : VData) : Hist :=
  [(k * 10000, .write d)] ++
  (List.range n).map (fun i => (k * 10000 + 10 + i, .throttle true Drive.okEnv)) ++
  [(k * 10000 + 30, .copy true), (k * 10000 + 60, .handle true),
   (k * 10000 + 70, .call Drive.okEnv), (k * 10000 + 80, .call Drive.okEnv),
   (k * 10000 + 90, .call Drive.okEnv)]

/-- Start-up, drive, and a BMS fault from 110 ms on. -/
def timedDrive : Hist :=
  (List.range 9).flatMap (fun k => busy k 3
    (sample (k == 2 || k == 8) (if k < 6 then 0 else 5) (if k < 8 then 0 else 1) false)) ++
  busy 9 4 (sample false 5 1 false) ++ busy 10 4 (sample false 5 1 false) ++
  (List.range 5).flatMap (fun k => busy (11 + k) (if k < 2 then 4 else 3) (sample false 5 1 true))

/-- The tasks keep up with the interrupts of that history, as far as one can compute it. -/
def checkKeepsUp (s0 : St) (H : Hist) (K : Nat) : Bool :=
  (List.range (K + 1)).all fun k =>
    match run s0 (events (before H (k * 10000))) with
    | .ok (s, _) =>
      decide (s.status = none) && s.pending.isEmpty && decide (s.thr.pc = .idle) &&
        (k == K || ((events (during H (k * 10000) ((k + 1) * 10000))).filterMap
          (fun e => match e with | .copy ok => some ok | _ => none)) == [true])
    | .error _ => false

/-- The throttle task still sends torque in the period in which the state machine enters FAULT and
at the beginning of the next, 120 ms after the start, but not later. The fault appears at 110 ms; the
bound of C123 is 140 ms. -/
example :
    (match demoStart with
    | .ok s =>
      checkKeepsUp s timedDrive 16 && (run s (events timedDrive)).isOk &&
      (((frames s timedDrive).map (fun x => (x.1 / 10000, Drive.torqueOf x.2))).drop 5) ==
        [(9, 5000), (10, 5000), (11, 5000), (12, 5000), (13, 0), (14, 0), (15, 0)]
    | .error _ => false) = true := by decide +kernel

end Verif.Vehicle
