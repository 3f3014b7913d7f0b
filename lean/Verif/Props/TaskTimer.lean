import Verif.Model.TaskTimer

set_option autoImplicit false

/-!
# Task timer (C56)
-/

namespace Verif.TaskTimer

/-- The state holding exactly the tasks `l`. -/
def Holds (s : St) (h : Nat) (l : List Nat) : Prop :=
  s.isInitialized = true ∧ s.timHandle = some h ∧ l.length ≤ maxTasks ∧
    s.numTasks.toNat = l.length ∧
    s.tasks = l.map some ++ List.replicate (maxTasks - l.length) none

theorem holds_init (s : St) (h : Nat) : Holds (init s true (some h) true).2 h [] :=
  ⟨rfl, rfl, by decide, rfl, rfl⟩

theorem register_ok {s : St} {h : Nat} {l : List Nat} (hs : Holds s h l)
    (hl : l.length < maxTasks) (t : Nat) :
    ∃ s', registerTask s true (some t) 0 = .ok (.ok, s') ∧ Holds s' h (l ++ [t]) := by
  obtain ⟨h1, h2, h3, h4, h5⟩ := hs
  have hlen : s.tasks.length = maxTasks := by
    rw [h5]; simp; omega
  refine ⟨{ s with tasks := s.tasks.set s.numTasks.toNat (some t), numTasks := s.numTasks + 1 },
    ?_, h1, h2, by simp; omega, ?_, ?_⟩
  · unfold registerTask
    rw [if_neg (by simp), if_neg (by simp [frequencyCount]), if_neg (by omega),
      if_pos (by omega)]
  · show (s.numTasks + 1).toNat = _
    have hm : maxTasks = 16 := rfl
    rw [UInt8.toNat_add, h4]
    simp
    omega
  · show s.tasks.set s.numTasks.toNat (some t) = _
    rw [h4, h5, List.set_append_right _ _ (by simp)]
    obtain ⟨k, hk⟩ : ∃ k, maxTasks - l.length = k + 1 := ⟨maxTasks - l.length - 1, by omega⟩
    rw [hk, List.replicate_succ]
    simp only [List.length_map, Nat.sub_self, List.set_cons_zero, List.length_append,
      List.length_cons, List.length_nil, List.map_append, List.map_cons, List.map_nil,
      List.append_assoc, List.singleton_append]
    rw [show maxTasks - (l.length + (0 + 1)) = k by omega]

theorem register_full {s : St} {h : Nat} {l : List Nat} (hs : Holds s h l)
    (hl : l.length = maxTasks) (t : Nat) :
    registerTask s true (some t) 0 = .ok (.errorFull, s) := by
  unfold registerTask
  rw [if_neg (by simp), if_neg (by simp [frequencyCount]), if_pos (by rw [hs.2.2.2.1, hl])]

theorem registerAll_holds : ∀ (ts : List Nat) (s : St) (h : Nat) (l : List Nat), Holds s h l →
    ∃ s', registerAll s ts =
        .ok (List.replicate (min ts.length (maxTasks - l.length)) .ok ++
          List.replicate (ts.length - (maxTasks - l.length)) .errorFull, s') ∧
      Holds s' h (l ++ ts.take (maxTasks - l.length))
  | [], s, h, l, hs => by
    refine ⟨s, ?_, by simpa using hs⟩
    show Except.ok ([], s) = _
    simp
  | t :: ts, s, h, l, hs => by
    have hle := hs.2.2.1
    by_cases hl : l.length < maxTasks
    · obtain ⟨s1, e1, g1⟩ := register_ok hs hl t
      obtain ⟨s2, e2, g2⟩ := registerAll_holds ts s1 h (l ++ [t]) g1
      obtain ⟨k, hk⟩ : ∃ k, maxTasks - l.length = k + 1 := ⟨maxTasks - l.length - 1, by omega⟩
      have hk' : maxTasks - (l ++ [t]).length = k := by simp; omega
      rw [hk'] at e2 g2
      refine ⟨s2, ?_, ?_⟩
      · show (registerTask s true (some t) 0 >>= _) = _
        rw [e1]
        show (registerAll s1 ts >>= _) = _
        rw [e2, hk]
        show Except.ok _ = _
        have a : min (t :: ts).length (k + 1) = min ts.length k + 1 := by simp
        have b : (t :: ts).length - (k + 1) = ts.length - k := by simp
        rw [a, b, List.replicate_succ, List.cons_append]
      · rw [hk, List.take_succ_cons]
        simpa using g2
    · have hf : l.length = maxTasks := by omega
      have e1 := register_full hs hf t
      obtain ⟨s2, e2, g2⟩ := registerAll_holds ts s h l hs
      have hz : maxTasks - l.length = 0 := by omega
      rw [hz] at e2 g2
      refine ⟨s2, ?_, ?_⟩
      · show (registerTask s true (some t) 0 >>= _) = _
        rw [e1]
        show (registerAll s ts >>= _) = _
        rw [e2, hz]
        show Except.ok _ = _
        simp [List.replicate_succ]
      · rw [hz]; simpa using g2

theorem notifyLoop_map : ∀ (l : List Nat) (pre post : List (Option Nat)),
    notifyLoop (pre ++ (l.map some ++ post)) pre.length l.length = .ok l
  | [], pre, post => rfl
  | t :: l, pre, post => by
    have ih := notifyLoop_map l (pre ++ [some t]) post
    rw [List.append_assoc, List.length_append] at ih
    have hg : (pre ++ (List.map some (t :: l) ++ post))[pre.length]? = some (some t) := by
      simp
    show (match (pre ++ (List.map some (t :: l) ++ post))[pre.length]? with
      | none => _ | some none => _ | some (some t) => _) = _
    rw [hg]
    show (notifyLoop _ (pre.length + 1) l.length >>= _) = _
    have : pre ++ (List.map some (t :: l) ++ post) = pre ++ ([some t] ++ (List.map some l ++ post)) := by
      simp
    rw [this]
    have e : notifyLoop (pre ++ ([some t] ++ (List.map some l ++ post))) (pre.length + 1) l.length
        = .ok l := ih
    rw [e]
    rfl

/-- **C56.** After a successful initialisation with timer `h`, for every sequence of
registrations: the first sixteen are accepted and all later ones refused as full, nothing is
written outside the table, every period of the timer notifies exactly the accepted tasks, each
once per registration and in registration order, and a period of any other timer notifies
nobody. -/
theorem C56_notifications (s0 : St) (h : Nat) (ts : List Nat) :
    (init s0 true (some h) true).1 = .ok ∧
    ∃ s, registerAll (init s0 true (some h) true).2 ts =
        .ok (List.replicate (min ts.length 16) .ok ++
          List.replicate (ts.length - 16) .errorFull, s) ∧
      callback s h = .ok (ts.take 16) ∧
      ∀ other, other ≠ h → callback s other = .ok [] := by
  obtain ⟨s, e, h1, h2, h3, h4, h5⟩ := registerAll_holds ts _ h [] (holds_init s0 h)
  refine ⟨rfl, s, e, ?_, ?_⟩
  · unfold callback
    rw [h1, h2]
    simp only [Bool.not_true, Bool.false_eq_true, if_false, if_true]
    rw [h4, h5]
    exact notifyLoop_map _ [] _
  · intro other ho
    unfold callback
    rw [h1, h2]
    simp [ho]

/-- A refused registration (no dependency, unknown frequency, full table) leaves the task timer
as it was. -/
theorem C56_refusal_no_effect (s s' : St) (depends : Bool) (task : Option Nat) (timer : Nat)
    (r : Status) (h : registerTask s depends task timer = .ok (r, s')) (hr : r ≠ .ok) :
    s' = s := by
  unfold registerTask at h
  split at h
  · cases h; rfl
  · split at h
    · cases h; rfl
    · split at h
      · cases h; rfl
      · split at h
        · cases h; exact absurd rfl hr
        · cases h

/-- Before initialisation every timer interrupt is ignored. -/
theorem C56_ignored_before_init (inst : Nat) : callback power inst = .ok [] := rfl

/-- If the timer passed is null, initialisation fails, but from then on every timer interrupt of
the processor dereferences the null handle. -/
theorem C56_null_timer (s0 : St) (started : Bool) (inst : Nat) :
    (init s0 true none started).1 = .errorTimer ∧
      callback (init s0 true none started).2 inst = .error .nullDeref := by
  constructor
  · simp [init]
  · simp [init, callback]

/-- Three tasks. -/
example : (do
    let (_, s) ← registerAll (init power true (some 2) true).2 [7, 5, 9]
    let a ← callback s 2
    let b ← callback s 1
    pure (a, b)) = Except.ok ([7, 5, 9], []) := by decide

end Verif.TaskTimer
