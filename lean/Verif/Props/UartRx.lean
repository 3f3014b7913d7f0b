import Verif.Spec.UartRx

set_option autoImplicit false

/-!
# C129: a serial port keeps listening

The invariant is a table: for every place of the port's handler, the states in which it may be found
there, written as numbers.  That the table contains the first state and is closed under every step that
is allowed is checked by the kernel, state by state; by induction it then holds after any run.
-/

namespace Verif.UartRx

open Verif.UartRx.Spec

/-- All steps of the start, in the order of the numbers in the table. -/
def starts : List Start :=
  [.test, .setType, .clearCode, .setBusy, .dropAbort, .lockTest, .lock, .stateTest, .setDma,
   .clearFlags, .enableIrq, .enable, .errIrq, .request, .typeTest, .idleIrq, .unlock, .failCode,
   .failReady]

/-- A number of the table as the task's place and the registers. -/
def entry (n : Nat) : Option Start × Regs :=
  (if n / 8192 = 0 then none else starts[n / 8192 - 1]?,
   ⟨n.testBit 0, n.testBit 1, n.testBit 2, n.testBit 3, n.testBit 4, n.testBit 5,
    match n / 2048 % 4 with
    | 0 => .ready
    | 1 => .busy
    | _ => .abort,
    n.testBit 6, n.testBit 7, n.testBit 8, n.testBit 9, n.testBit 10⟩)

/-- The table. -/
def table : Option Pc → List Nat
  | none =>
      [2555, 2558, 3435, 3438, 3579, 3582, 4678, 4710, 5702, 5734, 8192, 16384, 24832, 33024,
       41344, 49536, 57728, 65984, 74176, 84416, 92608, 100802, 108995, 117203, 118083, 118227,
       125403, 125406, 125435, 125438, 126283, 126286, 126427, 126430, 127558, 128582, 133595,
       133598, 133627, 133630, 134475, 134478, 134619, 134622, 135750, 136774]
  | some .abortOff =>
      [2555, 2558, 4675, 4678, 5699, 5702, 125435, 125438, 127555, 127558, 128579, 128582, 133627,
       133630, 135747, 135750, 136771, 136774]
  | some .abortState =>
      [2627, 2630, 3651, 3654, 125507, 125510, 126531, 126534, 133699, 133702, 134723, 134726]
  | some .abortTest =>
      [512, 1536, 2627, 2630, 3651, 3654, 123392, 124416, 125507, 125510, 126531, 126534, 131584,
       132608, 133699, 133702, 134723, 134726]
  | some .blockTest =>
      [2555, 2558, 3579, 3582, 118227, 125435, 125438, 126427, 126430, 126459, 126462, 133627,
       133630, 134619, 134622, 134651, 134654]
  | some .callback =>
      [0, 16, 24, 512, 1024, 1040, 1048, 1536, 117827, 118227, 122880, 122896, 122904, 123392,
       123904, 123920, 123928, 124416, 131072, 131088, 131096, 131584, 132096, 132112, 132120,
       132608]
  | some .codeTest =>
      [2555, 2558, 3579, 3582, 118227, 125435, 125438, 126427, 126430, 126459, 126462, 133627,
       133630, 134619, 134622, 134651, 134654]
  | some .direct =>
      [512, 1536, 123392, 124416, 131584, 132608]
  | some .endErr =>
      [2555, 2558, 3579, 3582, 118227, 125435, 125438, 126427, 126430, 126459, 126462, 133627,
       133630, 134619, 134622, 134651, 134654]
  | some .endIdle =>
      [2539, 2542, 3563, 3566, 118211, 125419, 125422, 126411, 126414, 126443, 126446, 133611,
       133614, 134603, 134606, 134635, 134638]
  | some .endReady =>
      [2507, 2510, 3531, 3534, 118211, 125387, 125390, 126411, 126414, 133579, 133582, 134603,
       134606]
  | some .endType =>
      [2379, 2382, 3403, 3406, 118083, 125259, 125262, 126283, 126286, 133451, 133454, 134475,
       134478]
  | some .idleCount =>
      [2555, 2558, 3435, 3438, 3579, 3582, 125435, 125438, 133627, 133630]
  | some .idleErr =>
      [2555, 2558, 3435, 3438, 3579, 3582, 125435, 125438, 133627, 133630]
  | some .idleOff =>
      [32, 1056, 2147, 2150, 2163, 2166, 2171, 2174, 3171, 3174, 3187, 3190, 3195, 3198, 122912,
       123936, 125027, 125030, 125043, 125046, 125051, 125054, 126051, 126054, 126067, 126070,
       126075, 126078, 131104, 132128, 133219, 133222, 133235, 133238, 133243, 133246, 134243,
       134246, 134259, 134262, 134267, 134270]
  | some .idleReady =>
      [2531, 2534, 2547, 2550, 2555, 2558, 3427, 3430, 3555, 3558, 125411, 125414, 125427, 125430,
       125435, 125438, 133603, 133606, 133619, 133622, 133627, 133630]
  | some .idleReq =>
      [2555, 2558, 3435, 3438, 3579, 3582, 125435, 125438, 133627, 133630]
  | some .idleReqOff =>
      [2539, 2542, 2555, 2558, 3435, 3438, 3563, 3566, 125419, 125422, 125435, 125438, 133611,
       133614, 133627, 133630]
  | some .idleType =>
      [2403, 2406, 2419, 2422, 2427, 2430, 3427, 3430, 3443, 3446, 3451, 3454, 125283, 125286,
       125299, 125302, 125307, 125310, 126307, 126310, 126323, 126326, 126331, 126334, 133475,
       133478, 133491, 133494, 133499, 133502, 134499, 134502, 134515, 134518, 134523, 134526]
  | some .noteError =>
      [2555, 2558, 3579, 3582, 117203, 118227, 125403, 125406, 125435, 125438, 126427, 126430,
       133595, 133598, 133627, 133630, 134619, 134622]
  | some .reqOff =>
      [0, 1024, 2123, 2126, 3147, 3150, 122880, 123904, 125003, 125006, 126027, 126030, 131072,
       132096, 133195, 133198, 134219, 134222]
  | some .reqTest =>
      [0, 1024, 2123, 2126, 3147, 3150, 117827, 122880, 123904, 125003, 125006, 126027, 126030,
       131072, 132096, 133195, 133198, 134219, 134222]
  | some .setAbort =>
      [0, 1024, 2115, 2118, 3139, 3142, 122880, 123904, 124995, 124998, 126019, 126022, 131072,
       132096, 133187, 133190, 134211, 134214]
  | some (.start .clearCode) =>
      [256, 272, 280, 768, 1280, 1296, 1304, 1792, 118083, 123136, 123152, 123160, 123648, 124160,
       124176, 124184, 124672, 131328, 131344, 131352, 131840, 132352, 132368, 132376, 132864]
  | some (.start .clearFlags) =>
      [2496, 2512, 2520, 125376, 125392, 125400, 133568, 133584, 133592]
  | some (.start .dropAbort) =>
      [384, 400, 408, 896, 117187, 118211, 123264, 123280, 123288, 123776, 131456, 131472, 131480,
       131968]
  | some (.start .enable) =>
      [2498, 2514, 2522, 125378, 125394, 125402, 133570, 133586, 133594]
  | some (.start .enableIrq) =>
      [2496, 2512, 2520, 125376, 125392, 125400, 133568, 133584, 133592]
  | some (.start .errIrq) =>
      [2499, 2515, 2523, 2526, 2555, 2558, 125379, 125395, 125403, 125406, 125435, 125438, 133571,
       133587, 133595, 133598, 133627, 133630]
  | some (.start .failCode) =>
      [117187, 118211]
  | some (.start .failReady) =>
      [118211]
  | some (.start .idleIrq) =>
      [2523, 2526, 2555, 2558, 125403, 125406, 125435, 125438, 133595, 133598, 133627, 133630]
  | some (.start .lock) =>
      [384, 400, 408, 123264, 123280, 123288, 131456, 131472, 131480]
  | some (.start .lockTest) =>
      [384, 400, 408, 117187, 118211, 123264, 123280, 123288, 131456, 131472, 131480]
  | some (.start .request) =>
      [2515, 2523, 2526, 2555, 2558, 125395, 125403, 125406, 125435, 125438, 133587, 133595,
       133598, 133627, 133630]
  | some (.start .setBusy) =>
      [256, 272, 280, 768, 117059, 118083, 123136, 123152, 123160, 123648, 131328, 131344, 131352,
       131840]
  | some (.start .setDma) =>
      [448, 464, 472, 123328, 123344, 123352, 131520, 131536, 131544]
  | some (.start .setType) =>
      [0, 16, 24, 512, 1024, 1040, 1048, 1536, 117827, 122880, 122896, 122904, 123392, 123904,
       123920, 123928, 124416, 131072, 131088, 131096, 131584, 132096, 132112, 132120, 132608]
  | some (.start .stateTest) =>
      [448, 464, 472, 123328, 123344, 123352, 131520, 131536, 131544]
  | some (.start .test) =>
      [0, 16, 24, 512, 1024, 1040, 1048, 1536, 117827, 118227, 122880, 122896, 122904, 123392,
       123904, 123920, 123928, 124416, 131072, 131088, 131096, 131584, 132096, 132112, 132120,
       132608]
  | some (.start .typeTest) =>
      [2523, 2526, 2555, 2558, 125403, 125406, 125435, 125438, 133595, 133598, 133627, 133630]
  | some .stopFlags =>
      [0, 1024, 2116, 2132, 2140, 3140, 3156, 3164, 122880, 123904, 124996, 125012, 125020, 126020,
       126036, 126044, 131072, 132096, 133188, 133204, 133212, 134212, 134228, 134236]
  | some .stopIrq =>
      [0, 1024, 2115, 2118, 2131, 2134, 2139, 2142, 3139, 3142, 3155, 3158, 3163, 3166, 122880,
       123904, 124995, 124998, 125011, 125014, 125019, 125022, 126019, 126022, 126035, 126038,
       126043, 126046, 131072, 132096, 133187, 133190, 133203, 133206, 133211, 133214, 134211,
       134214, 134227, 134230, 134235, 134238]
  | some .stopOff =>
      [0, 1024, 2113, 2116, 2129, 2132, 2137, 2140, 3137, 3140, 3153, 3156, 3161, 3164, 122880,
       123904, 124993, 124996, 125009, 125012, 125017, 125020, 126017, 126020, 126033, 126036,
       126041, 126044, 131072, 132096, 133185, 133188, 133201, 133204, 133209, 133212, 134209,
       134212, 134225, 134228, 134233, 134236]
  | some .stopState =>
      [0, 1024, 2112, 2128, 2136, 3136, 3152, 3160, 122880, 123904, 124992, 125008, 125016, 126016,
       126032, 126040, 131072, 132096, 133184, 133200, 133208, 134208, 134224, 134232]
  | some .stopTest =>
      [0, 1024, 2115, 2118, 2131, 2134, 2139, 2142, 3139, 3142, 3155, 3158, 3163, 3166, 122880,
       123904, 124995, 124998, 125011, 125014, 125019, 125022, 126019, 126022, 126035, 126038,
       126043, 126046, 131072, 132096, 133187, 133190, 133203, 133206, 133211, 133214, 134211,
       134214, 134227, 134230, 134235, 134238]
  | some .stopUnlock =>
      [0, 64, 80, 88, 1024, 1088, 1104, 1112, 122880, 122944, 122960, 122968, 123904, 123968,
       123984, 123992, 131072, 131136, 131152, 131160, 132096, 132160, 132176, 132184]
  | _ => []

/-- The states in the table. -/
def Inv (s : St) : Prop := s.fault = false ∧ (s.task, s.r) ∈ (table s.isr).map entry

instance (s : St) : Decidable (Inv s) := by unfold Inv; infer_instance

/-- All events. -/
def events : List Ev :=
  [.last, .half, .done, .port false false, .port false true, .port true false, .port true true,
   .isr false, .isr true, .task]

theorem mem_events (e : Ev) : e ∈ events := by
  cases e with
  | port a b => cases a <;> cases b <;> decide
  | isr b => cases b <;> decide
  | _ => decide

/-- One step does not leave the table. -/
def closedAt (p : Option Pc) : Bool :=
  (table p).all fun n =>
    let s : St := ⟨(entry n).2, p, (entry n).1, false⟩
    events.all fun e =>
      (decide (e = .done) && asking s && decide (∃ q ∈ fragile, p = some q)) || decide (Inv (step s e))

theorem closed : ∀ p, closedAt p = true := by
  intro p
  cases p with
  | none => decide +kernel
  | some p =>
    cases p with
    | start q => cases q <;> decide +kernel
    | _ => decide +kernel

theorem inv_init : Inv init := by decide +kernel

theorem inv_step (s : St) (e : Ev) (h : Inv s)
    (hs : e = .done → asking s = true → ∀ p ∈ fragile, s.isr ≠ some p) : Inv (step s e) := by
  obtain ⟨hf, hm⟩ := h
  obtain ⟨n, hn, he⟩ := List.mem_map.mp hm
  have hc := closed s.isr
  unfold closedAt at hc
  have h1 := List.all_eq_true.mp hc n hn
  dsimp only at h1
  have h2 := List.all_eq_true.mp h1 e (mem_events e)
  have hst : (⟨(entry n).2, s.isr, (entry n).1, false⟩ : St) = s := by
    rw [he, ← hf]
  rw [hst] at h2
  rw [Bool.or_eq_true] at h2
  rcases h2 with h2 | h2
  · rw [Bool.and_eq_true, Bool.and_eq_true] at h2
    obtain ⟨⟨h3, h4⟩, h5⟩ := h2
    obtain ⟨q, hq, hq'⟩ := of_decide_eq_true h5
    exact absurd hq' (hs (of_decide_eq_true h3) h4 q hq)
  · exact of_decide_eq_true h2

theorem inv_run : ∀ (es : List Ev) (s : St), Inv s → Spared fragile s es → Inv (run s es)
  | [], _, h, _ => h
  | e :: es, s, h, hs => inv_run es (step s e) (inv_step s e h hs.1) hs.2

/-- What the table says about a state at rest. -/
def restGood (s : St) : Bool :=
  decide (s.task ≠ none) || decide (Listening s) || (asking s && decide (Listening (step s .done)))

/-- It says so about all of them. -/
def restOk : Bool := (table none).all fun n => restGood ⟨(entry n).2, none, (entry n).1, false⟩

theorem restOk_true : restOk = true := by decide +kernel

/-- **A serial port keeps listening.**  Whatever bytes, errors and silences come, and however the
interrupts of the port and of its stream fall, whenever the port has been configured and no handler is
running, it is listening, or the stream's interrupt is about to be served and leaves it listening -
provided the stream's final interrupt is never served at one of the five fragile places.  An error
pending when the port is configured, which interrupts the start itself, is included. -/
theorem C129_keeps_listening_partial (es : List Ev) (hs : Spared fragile init es)
    (hr : AtRest (run init es)) :
    Listening (run init es) ∨
      (asking (run init es) = true ∧ Listening (step (run init es) .done)) := by
  have h := inv_run es init inv_init hs
  generalize run init es = s at h hr
  obtain ⟨hf, hm⟩ := h
  obtain ⟨hi, ht⟩ := hr
  obtain ⟨n, hn, he⟩ := List.mem_map.mp hm
  rw [hi] at hn
  have h1 := List.all_eq_true.mp restOk_true n hn
  have hst : (⟨(entry n).2, none, (entry n).1, false⟩ : St) = s := by
    rw [he, ← hf, ← hi]
  rw [hst] at h1
  unfold restGood at h1
  rw [Bool.or_eq_true, Bool.or_eq_true] at h1
  rcases h1 with (h1 | h1) | h1
  · exact absurd ht (of_decide_eq_true h1)
  · exact Or.inl (of_decide_eq_true h1)
  · rw [Bool.and_eq_true] at h1
    exact Or.inr ⟨h1.1, of_decide_eq_true h1.2⟩

/-- Under the same condition the handler never calls through a null pointer. -/
theorem C129_no_null_call_partial (es : List Ev) (hs : Spared fragile init es) :
    (run init es).fault = false := (inv_run es init inv_init hs).1

/-- What happens from a state of the table at rest when a message ends: the port's handler, alone, calls
the firmware's callback and leaves the port listening again. -/
def endGood (s : St) : Bool :=
  decide (s.task ≠ none) || decide (¬ Listening s) ||
    (decide ((run s (.port false true :: List.replicate 13 (.isr true))).isr = some .callback) &&
     decide (Listening (run s (.port false true :: List.replicate 30 (.isr true)))) &&
     decide (AtRest (run s (.port false true :: List.replicate 30 (.isr true)))))

/-- It does so from all of them. -/
def endOk : Bool := (table none).all fun n => endGood ⟨(entry n).2, none, (entry n).1, false⟩

theorem endOk_true : endOk = true := by decide +kernel

/-- **The end of a message is passed on.**  When the line falls silent after some bytes, the handler calls
the firmware's callback and the port listens again. -/
theorem C129_message_end_partial (es : List Ev) (hs : Spared fragile init es)
    (hr : AtRest (run init es)) (hl : Listening (run init es)) :
    (run (run init es) (.port false true :: List.replicate 13 (.isr true))).isr = some .callback ∧
    Listening (run (run init es) (.port false true :: List.replicate 30 (.isr true))) ∧
    AtRest (run (run init es) (.port false true :: List.replicate 30 (.isr true))) := by
  have h := inv_run es init inv_init hs
  generalize run init es = s at h hr hl
  obtain ⟨hf, hm⟩ := h
  obtain ⟨hi, ht⟩ := hr
  obtain ⟨n, hn, he⟩ := List.mem_map.mp hm
  rw [hi] at hn
  have h1 := List.all_eq_true.mp endOk_true n hn
  have hst : (⟨(entry n).2, none, (entry n).1, false⟩ : St) = s := by
    rw [he, ← hf, ← hi]
  rw [hst] at h1
  unfold endGood at h1
  rw [Bool.or_eq_true, Bool.or_eq_true] at h1
  rcases h1 with (h1 | h1) | h1
  · exact absurd ht (of_decide_eq_true h1)
  · exact absurd hl (of_decide_eq_true h1)
  · rw [Bool.and_eq_true, Bool.and_eq_true] at h1
    exact ⟨of_decide_eq_true h1.1.1, of_decide_eq_true h1.1.2, of_decide_eq_true h1.2⟩

/-- The run in which the stream's interrupt is served between the test and the assignment in
`HAL_DMA_Abort_IT`: the port is configured, the last byte of a full buffer arrives while an error is
being handled. -/
def deaf : List Ev :=
  [.task, .task, .task, .task, .task, .task, .task, .task, .task, .task, .task, .task, .task,
   .task, .last, .port true false, .isr false, .isr false, .isr false, .isr false, .isr false,
   .isr false, .isr false, .isr false, .isr false, .isr false, .isr false, .done, .isr false,
   .isr false, .task]

/-- **As shipped the claim is false: a serial port can go deaf for good.**  After this run no sequence of
bytes, errors, silences and interrupts makes the port listen again. -/
theorem C129_deaf_for_good :
    AtRest (run init deaf) ∧ ∀ es, ¬ Listening (run (run init deaf) es) := by
  have hfix : ∀ e, step (run init deaf) e = run init deaf := by
    intro e
    have h : ∀ e ∈ events, step (run init deaf) e = run init deaf := by decide +kernel
    exact h e (mem_events e)
  have hrun : ∀ es, run (run init deaf) es = run init deaf := by
    intro es
    induction es with
    | nil => rfl
    | cons e es ih => rw [run, hfix e, ih]
  refine ⟨by decide +kernel, fun es => ?_⟩
  rw [hrun es]
  decide +kernel

/-- Runs that spare four of the places, one for each of the five. -/
def witness : Pc → List Ev
  | .endIdle =>
  [.task, .task, .task, .task, .task, .task, .task, .task, .task, .task, .task, .task, .task,
   .task, .last, .port true false, .isr false, .isr false, .isr false, .isr false, .done,
   .isr false, .isr false, .isr false, .isr false, .isr false, .isr false, .isr false,
   .isr false, .isr false, .task, .port true false, .isr false, .isr false, .isr false,
   .isr false, .isr false, .isr false, .isr false, .isr false, .isr false, .isr false, .done,
   .isr false, .isr false]
  | .endReady =>
  [.task, .task, .task, .task, .task, .task, .task, .task, .task, .task, .task, .task, .task,
   .task, .last, .port true false, .isr false, .isr false, .isr false, .isr false, .isr false,
   .done, .isr false, .isr false, .isr false, .isr false, .isr false, .isr false, .isr false,
   .isr false, .task, .port true false, .isr false, .isr false, .isr false, .isr false,
   .isr false, .isr false, .isr false, .isr false, .isr false, .isr false, .done, .isr false,
   .isr false]
  | .endType =>
  [.task, .task, .task, .task, .task, .task, .task, .task, .task, .task, .task, .task, .task,
   .task, .last, .port true false, .isr false, .isr false, .isr false, .isr false, .isr false,
   .isr false, .done, .isr false, .isr false, .isr false, .isr false, .isr false, .isr false,
   .isr false, .done, .task]
  | .idleType =>
  [.task, .task, .task, .task, .task, .task, .task, .task, .task, .task, .task, .task, .task,
   .task, .last, .task, .task, .port false true, .isr false, .isr true, .isr false, .isr false,
   .isr false, .done, .isr false, .isr false, .isr false, .isr false, .isr false, .isr false,
   .isr false, .isr false, .isr false, .isr false]
  | _ => deaf

/-- None of the five places can be left out: for each there is a run sparing the other four after which
the configured port is at rest, not listening, and nothing is asking for an interrupt. -/
theorem C129_each_place_matters :
    ∀ p ∈ fragile, Spared (fragile.filter (· ≠ p)) init (witness p) ∧
      AtRest (run init (witness p)) ∧ ¬ Listening (run init (witness p)) ∧
      asking (run init (witness p)) = false := by
  decide +kernel

/-- A case: configured, half a buffer, the end of a message, an error, all without the stream's final
interrupt inside the port's handler. -/
example :
    let es := List.replicate 16 Ev.task ++ [.half, .port false true] ++ List.replicate 30 (.isr true) ++
      [.port true false] ++ List.replicate 13 (.isr false) ++ [.done]
    Spared fragile init es ∧ AtRest (run init es) ∧ Listening (run init es) := by
  decide +kernel

/-- A case: bytes lost before the port was configured interrupt the start after errors are switched on;
the port listens all the same. -/
example :
    let es := List.replicate 13 Ev.task ++ [.port true false] ++ List.replicate 30 (.isr true) ++
      List.replicate 4 .task
    Spared fragile init es ∧ AtRest (run init es) ∧ Listening (run init es) ∧
      (run init es).r.eie = false := by
  decide +kernel

end Verif.UartRx
