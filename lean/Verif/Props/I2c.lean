import Verif.Model.I2c

set_option autoImplicit false

/-!
# I2C: lock release (C59) and transfer completion (C60)
-/

namespace Verif.I2c

/-- No interface is locked. -/
def Unlocked (s : St) : Prop := s.dev0.busy = false ∧ s.dev1.busy = false

theorem unlocked_set {s : St} (h : Unlocked s) (d : Nat) (v : Dev) (hv : v.busy = false) :
    Unlocked (setDev s d v) := by
  unfold setDev
  split
  · exact ⟨hv, h.2⟩
  · exact ⟨h.1, hv⟩

theorem unlocked_get {s : St} (h : Unlocked s) {d : Nat} {v : Dev} (hv : getDev s d = some v) :
    v.busy = false := by
  unfold getDev at hv
  split at hv
  · cases hv; exact h.1
  · cases hv; exact h.2
  · cases hv

theorem get_set {s : St} {d : Nat} {v w : Dev} (hv : getDev s d = some v) :
    getDev (setDev s d w) d = some w := by
  unfold getDev at hv
  split at hv
  · rfl
  · rfl
  · cases hv

/-- A read that returns leaves its interface unlocked if it found it unlocked, and never reports
it busy then. -/
theorem readDev_unlocked {v v' : Dev} {len : UInt16} {hw : Hw} {r : Status} {bs : List UInt8}
    (hb : v.busy = false) (e : readDev v len hw = .ok (r, bs, v')) :
    v'.busy = false ∧ r ≠ .errorBusy := by
  unfold readDev at e
  split at e
  · cases e
  · split at e
    · rename_i h; rw [hb] at h; cases h
    · dsimp only at e
      split at e
      · cases e; exact ⟨rfl, by decide⟩
      · split at e
        · cases e; exact ⟨rfl, by decide⟩
        · split at e
          · cases e
          · split at e
            · cases e; exact ⟨rfl, by decide⟩
            · cases e; exact ⟨rfl, by decide⟩

theorem writeDev_unlocked {v v' : Dev} {data : List UInt8} {len : UInt16} {hw : Hw} {r : Status}
    (hb : v.busy = false) (e : writeDev v data len hw = .ok (r, v')) :
    v'.busy = false ∧ r ≠ .errorBusy := by
  unfold writeDev at e
  split at e
  · cases e
  · split at e
    · rename_i h; rw [hb] at h; cases h
    · dsimp only at e
      split at e
      · cases e; exact ⟨rfl, by decide⟩
      · split at e
        · cases e; exact ⟨rfl, by decide⟩
        · split at e
          · cases e
          · split at e
            · cases e; exact ⟨rfl, by decide⟩
            · cases e; exact ⟨rfl, by decide⟩

theorem apply_unlocked {s s' : St} {o : Op} {r : Status} (h : Unlocked s)
    (e : apply s o = .ok (r, s')) : Unlocked s' ∧ r ≠ .errorBusy := by
  cases o with
  | config d hd =>
    simp only [apply, Except.ok.injEq] at e
    unfold config at e
    split at e
    · cases e; exact ⟨h, by decide⟩
    · split at e
      · cases e; exact ⟨h, by decide⟩
      · cases e; exact ⟨unlocked_set h _ _ rfl, by decide⟩
  | read d len hw =>
    simp only [apply, read] at e
    cases hv : getDev s d with
    | none => rw [hv] at e; cases e; exact ⟨h, by decide⟩
    | some v =>
      rw [hv] at e
      dsimp only at e
      cases hr : readDev v len hw with
      | error x => rw [hr] at e; cases e
      | ok p =>
        rw [hr] at e
        cases e
        obtain ⟨h1, h2⟩ := readDev_unlocked (unlocked_get h hv) hr
        exact ⟨unlocked_set h _ _ h1, h2⟩
  | write d data len hw =>
    simp only [apply, write] at e
    cases hv : getDev s d with
    | none => rw [hv] at e; cases e; exact ⟨h, by decide⟩
    | some v =>
      rw [hv] at e
      dsimp only at e
      cases hr : writeDev v data len hw with
      | error x => rw [hr] at e; cases e
      | ok p =>
        rw [hr] at e
        cases e
        obtain ⟨h1, h2⟩ := writeDev_unlocked (unlocked_get h hv) hr
        exact ⟨unlocked_set h _ _ h1, h2⟩
  | irq hd =>
    simp only [apply, irq] at e
    cases hh : handleToDevice s hd with
    | error x => rw [hh] at e; cases e
    | ok o =>
      rw [hh] at e
      cases o with
      | none => cases e; exact ⟨h, by decide⟩
      | some d =>
        dsimp only at e
        cases hv : getDev s d with
        | none => rw [hv] at e; cases e; exact ⟨h, by decide⟩
        | some v =>
          rw [hv] at e
          dsimp only at e
          cases hg : giveFromIsr v.xfer with
          | error x => rw [hg] at e; cases e
          | ok m =>
            rw [hg] at e
            cases e
            have := unlocked_get h hv
            exact ⟨unlocked_set h _ _ this, by decide⟩

theorem run_unlocked : ∀ (os : List Op) (s s' : St), Unlocked s → run s os = .ok s' →
    Unlocked s'
  | [], s, s', h, e => by cases e; exact h
  | o :: os, s, s', h, e => by
    have e' : (apply s o >>= fun r => run r.2 os) = .ok s' := e
    cases ha : apply s o with
    | error x => rw [ha] at e'; cases e'
    | ok r =>
      rw [ha] at e'
      exact run_unlocked os r.2 s' (apply_unlocked (r := r.1) h ha).1 e'

/-- **C59 for I2C.** After every history of configurations, reads, writes and interrupts in which
no call ran into undefined behaviour or a failed assertion, both bus locks are free, and no later
call is refused as busy. Failed, timed out and refused transfers are part of the history. -/
theorem C59_i2c_partial (os : List Op) (s : St) (e : run start os = .ok s) :
    Unlocked s ∧ ∀ (o : Op) (r : Status) (s' : St), apply s o = .ok (r, s') →
      r ≠ .errorBusy := by
  have hu := run_unlocked os start s ⟨rfl, rfl⟩ e
  exact ⟨hu, fun o r s' h => (apply_unlocked hu h).2⟩

/-- A history with a failed start, a refused length, and a timeout. -/
example : (run start [.config 0 7, .config 1 8, .read 0 4 ⟨false, false, false, []⟩,
    .write 0 [] 3000 ⟨true, false, false, []⟩, .read 0 4 ⟨true, true, false, [1, 2, 3, 4]⟩,
    .read 0 4 ⟨true, false, false, []⟩]).map (fun s => (s.dev0.busy, s.dev0.xfer))
      = .ok (false, ⟨false, true⟩) := by decide +kernel

/-- A configured interface that has not been used: both mutexes as created. -/
def Fresh (v : Dev) : Prop :=
  v.inUse = true ∧ v.busy = false ∧ v.xfer = ⟨true, false⟩

/-- An interface whose transfer semaphore has been taken once. -/
def Used (v : Dev) : Prop :=
  v.inUse = true ∧ v.busy = false ∧ v.xfer = ⟨false, true⟩

theorem C60_config_fresh (s s' : St) (d h : Nat) (e : config s d h = (.ok, s')) :
    ∃ v, getDev s' d = some v ∧ Fresh v := by
  unfold config at e
  cases hv : getDev s d with
  | none => rw [hv] at e; cases e
  | some v =>
    rw [hv] at e
    dsimp only at e
    split at e
    · cases e
    · cases e
      exact ⟨_, get_set hv, rfl, rfl, rfl⟩

/-- **C60 is false.** The first read on an interface reports success without any completion: it
returns at once, with whatever the DMA had stored by then (`bytes`, for instance nothing)
followed by the previous contents of the buffer. This holds for every length and every state of
the other interface. -/
theorem C60_first_read_unfinished (s : St) (d : Nat) (v : Dev) (hv : getDev s d = some v)
    (hf : Fresh v) (len : UInt16) (hl : len.toNat < 2048) (bytes : List UInt8) :
    ∃ s', read s d len ⟨true, false, false, bytes⟩ =
      .ok (.ok, (bytes ++ v.buf.drop bytes.length).take len.toNat, s') := by
  obtain ⟨h1, h2, h3⟩ := hf
  have hl' : ¬ dmaBufLen ≤ len.toNat := by unfold dmaBufLen; omega
  simp [read, readDev, hv, h1, h2, h3, hl', wait, takeXfer, bind, Except.bind]

/-- **The completion then stops the processor.** Once a transfer has succeeded on an interface,
every completion interrupt of that interface gives a mutex that a task holds and fails the
kernel's assertion. -/
theorem C60_completion_halts (s : St) (d : Nat) (v : Dev) (hv : getDev s d = some v)
    (hu : Used v) (h : Nat) (hh : handleToDevice s h = .ok (some d)) :
    irq s h = .error .assertFail := by
  unfold irq
  simp [hh, hv, giveFromIsr, hu.2.2]

/-- **And no further read completes.** On an interface used once, a read whose completion arrives
stops the processor, and one whose completion does not arrive times out; success is impossible. -/
theorem C60_second_read (s : St) (d : Nat) (v : Dev) (hv : getDev s d = some v) (hu : Used v)
    (len : UInt16) (hl : len.toNat < 2048) (hw : Hw) (hs : hw.started = true) :
    (hw.early = true ∨ hw.late = true → read s d len hw = .error .assertFail) ∧
    (hw.early = false ∧ hw.late = false →
      ∃ s', read s d len hw = .ok (.errorTimeout, [], s')) := by
  obtain ⟨h1, h2, h3⟩ := hu
  have hl' : ¬ dmaBufLen ≤ len.toNat := by unfold dmaBufLen; omega
  constructor
  · rintro (he | hl')
    · simp [read, readDev, hv, h1, h2, h3, hs, hl', he, wait, giveFromIsr, bind, Except.bind]
    · cases he : hw.early <;>
      simp [read, readDev, hv, h1, h2, h3, hs, hl', he, ‹¬ dmaBufLen ≤ _›, wait, giveFromIsr,
        takeXfer, bind, Except.bind]
  · rintro ⟨he, hla⟩
    simp [read, readDev, hv, h1, h2, h3, hs, hl', he, hla, wait, takeXfer, bind, Except.bind]

/-- The two states a configured interface can be in. -/
def Good (v : Dev) : Prop := v.inUse = true → Fresh v ∨ Used v

theorem wait_good {m m' : Mutex} {hw : Hw} {got : Bool}
    (h : m = ⟨true, false⟩ ∨ m = ⟨false, true⟩) (e : wait m hw = .ok (got, m')) :
    m' = ⟨false, true⟩ ∧ (got = true → m = ⟨true, false⟩) := by
  cases hw with
  | mk st early late bytes =>
    rcases h with rfl | rfl <;> cases early <;> cases late <;>
      simp [wait, takeXfer, giveFromIsr, bind, Except.bind] at e <;>
      (obtain ⟨rfl, rfl⟩ := e; simp)

theorem readDev_good {v v' : Dev} {len : UInt16} {hw : Hw} {r : Status} {bs : List UInt8}
    (hg : Good v) (e : readDev v len hw = .ok (r, bs, v')) :
    Good v' ∧ (r = .ok → Fresh v ∧ Used v') := by
  unfold readDev at e
  split at e
  · cases e
  · rename_i hin
    have hin' : v.inUse = true := by simpa using hin
    have hb : v.busy = false := by
      rcases hg hin' with h | h
      · exact h.2.1
      · exact h.2.1
    have hx : v.xfer = ⟨true, false⟩ ∨ v.xfer = ⟨false, true⟩ := by
      rcases hg hin' with h | h
      · exact .inl h.2.2
      · exact .inr h.2.2
    split at e
    · rename_i h; rw [hb] at h; cases h
    · dsimp only at e
      have same : Good (give { v with busy := true }) := fun _ => by
        rcases hx with h | h
        · exact .inl ⟨hin', rfl, h⟩
        · exact .inr ⟨hin', rfl, h⟩
      split at e
      · cases e; exact ⟨same, fun h => by cases h⟩
      · split at e
        · cases e; exact ⟨same, fun h => by cases h⟩
        · split at e
          · cases e
          · rename_i got m hm
            obtain ⟨h1, h2⟩ := wait_good hx hm
            split at e
            · rename_i hgot
              cases e
              have hu : Used (give { v with busy := true, buf := hw.bytes ++ v.buf.drop hw.bytes.length, xfer := m }) :=
                ⟨hin', rfl, h1⟩
              exact ⟨fun _ => .inr hu, fun _ => ⟨⟨hin', hb, h2 hgot⟩, hu⟩⟩
            · cases e
              exact ⟨fun _ => .inr ⟨hin', rfl, h1⟩, fun h => by cases h⟩

theorem writeDev_good {v v' : Dev} {data : List UInt8} {len : UInt16} {hw : Hw} {r : Status}
    (hg : Good v) (e : writeDev v data len hw = .ok (r, v')) :
    Good v' ∧ (r = .ok → Fresh v ∧ Used v') := by
  unfold writeDev at e
  split at e
  · cases e
  · rename_i hin
    have hin' : v.inUse = true := by simpa using hin
    have hb : v.busy = false := by
      rcases hg hin' with h | h
      · exact h.2.1
      · exact h.2.1
    have hx : v.xfer = ⟨true, false⟩ ∨ v.xfer = ⟨false, true⟩ := by
      rcases hg hin' with h | h
      · exact .inl h.2.2
      · exact .inr h.2.2
    split at e
    · rename_i h; rw [hb] at h; cases h
    · dsimp only at e
      split at e
      · cases e
        refine ⟨fun _ => ?_, fun h => by cases h⟩
        rcases hx with h | h
        · exact .inl ⟨hin', rfl, h⟩
        · exact .inr ⟨hin', rfl, h⟩
      · split at e
        · cases e
          refine ⟨fun _ => ?_, fun h => by cases h⟩
          rcases hx with h | h
          · exact .inl ⟨hin', rfl, h⟩
          · exact .inr ⟨hin', rfl, h⟩
        · split at e
          · cases e
          · rename_i got m hm
            obtain ⟨h1, h2⟩ := wait_good hx hm
            split at e
            · rename_i hgot
              cases e
              have hu : Used (give { v with busy := true, buf := data.take len.toNat ++ v.buf.drop len.toNat, xfer := m }) :=
                ⟨hin', rfl, h1⟩
              exact ⟨fun _ => .inr hu, fun _ => ⟨⟨hin', hb, h2 hgot⟩, hu⟩⟩
            · cases e
              exact ⟨fun _ => .inr ⟨hin', rfl, h1⟩, fun h => by cases h⟩

def GoodSt (s : St) : Prop := Good s.dev0 ∧ Good s.dev1

theorem good_set {s : St} (h : GoodSt s) (d : Nat) (v : Dev) (hv : Good v) :
    GoodSt (setDev s d v) := by
  unfold setDev
  split
  · exact ⟨hv, h.2⟩
  · exact ⟨h.1, hv⟩

theorem good_get {s : St} (h : GoodSt s) {d : Nat} {v : Dev} (hv : getDev s d = some v) :
    Good v := by
  unfold getDev at hv
  split at hv
  · cases hv; exact h.1
  · cases hv; exact h.2
  · cases hv

theorem apply_good {s s' : St} {o : Op} {r : Status} (h : GoodSt s)
    (e : apply s o = .ok (r, s')) : GoodSt s' := by
  cases o with
  | config d hd =>
    simp only [apply, Except.ok.injEq] at e
    unfold config at e
    split at e
    · cases e; exact h
    · split at e
      · cases e; exact h
      · cases e; exact good_set h _ _ (fun _ => .inl ⟨rfl, rfl, rfl⟩)
  | read d len hw =>
    simp only [apply, read] at e
    cases hv : getDev s d with
    | none => rw [hv] at e; cases e; exact h
    | some v =>
      rw [hv] at e
      dsimp only at e
      cases hr : readDev v len hw with
      | error x => rw [hr] at e; cases e
      | ok p =>
        rw [hr] at e
        cases e
        exact good_set h _ _ (readDev_good (good_get h hv) hr).1
  | write d data len hw =>
    simp only [apply, write] at e
    cases hv : getDev s d with
    | none => rw [hv] at e; cases e; exact h
    | some v =>
      rw [hv] at e
      dsimp only at e
      cases hr : writeDev v data len hw with
      | error x => rw [hr] at e; cases e
      | ok p =>
        rw [hr] at e
        cases e
        exact good_set h _ _ (writeDev_good (good_get h hv) hr).1
  | irq hd =>
    simp only [apply, irq] at e
    cases hh : handleToDevice s hd with
    | error x => rw [hh] at e; cases e
    | ok o =>
      rw [hh] at e
      cases o with
      | none => cases e; exact h
      | some d =>
        dsimp only at e
        cases hv : getDev s d with
        | none => rw [hv] at e; cases e; exact h
        | some v =>
          rw [hv] at e
          dsimp only at e
          cases hg : giveFromIsr v.xfer with
          | error x => rw [hg] at e; cases e
          | ok m =>
            rw [hg] at e
            cases e
            have hgood := good_get h hv
            refine good_set h _ _ (fun hin => ?_)
            unfold giveFromIsr at hg
            rcases hgood hin with hf | hu
            · left
              rw [hf.2.2] at hg
              cases hg
              exact ⟨hf.1, hf.2.1, rfl⟩
            · rw [hu.2.2] at hg
              cases hg

theorem run_good : ∀ (os : List Op) (s s' : St), GoodSt s → run s os = .ok s' → GoodSt s'
  | [], s, s', h, e => by cases e; exact h
  | o :: os, s, s', h, e => by
    have e' : (apply s o >>= fun r => run r.2 os) = .ok s' := e
    cases ha : apply s o with
    | error x => rw [ha] at e'; cases e'
    | ok r =>
      rw [ha] at e'
      exact run_good os r.2 s' (apply_good (r := r.1) h ha) e'

theorem start_good : GoodSt start :=
  ⟨fun (h : false = true) => (by cases h), fun (h : false = true) => (by cases h)⟩

/-- **Every read that reports success reports a transfer nobody waited for.** In every reachable
state, a read that returns `OK` found the interface unused since its configuration and took the
transfer semaphore without waiting; the interface is used up afterwards. -/
theorem C60_ok_only_once (os : List Op) (s s' : St) (e : run start os = .ok s) (d : Nat)
    (len : UInt16) (hw : Hw) (bs : List UInt8) (h : read s d len hw = .ok (.ok, bs, s')) :
    ∃ v v', getDev s d = some v ∧ Fresh v ∧ getDev s' d = some v' ∧ Used v' := by
  have hg := run_good os start s start_good e
  unfold read at h
  cases hv : getDev s d with
  | none => rw [hv] at h; cases h
  | some v =>
    rw [hv] at h
    dsimp only at h
    cases hr : readDev v len hw with
    | error x => rw [hr] at h; cases h
    | ok p =>
      obtain ⟨r, b, v'⟩ := p
      rw [hr] at h
      cases h
      obtain ⟨_, h2⟩ := readDev_good (good_get hg hv) hr
      obtain ⟨hf, hu⟩ := h2 rfl
      exact ⟨v, _, rfl, hf, get_set hv, hu⟩

/-- **What does hold**: a read whose completion arrives before it takes the semaphore returns the
received bytes. -/
theorem C60_early_partial (s : St) (d : Nat) (v : Dev) (hv : getDev s d = some v) (hf : Fresh v)
    (len : UInt16) (hl : len.toNat < 2048) (late : Bool) (bytes : List UInt8)
    (hlen : bytes.length = len.toNat) :
    ∃ s', read s d len ⟨true, true, late, bytes⟩ = .ok (.ok, bytes, s') := by
  obtain ⟨h1, h2, h3⟩ := hf
  have hl' : ¬ dmaBufLen ≤ len.toNat := by unfold dmaBufLen; omega
  rw [← hlen] at hl'
  simp [read, readDev, hv, h1, h2, h3, hl', wait, giveFromIsr, takeXfer, bind, Except.bind,
    ← hlen]

/-- With only the second interface configured, its completion interrupt dereferences the null
handle of the first. -/
theorem C60_only_second_interface (h h' : Nat) (s : St)
    (e : config start 1 h = (.ok, s)) : irq s h' = .error .nullDeref := by
  cases e
  rfl

/-- Configure both, read two bytes: success with two zero bytes, nothing received. -/
example : (do
    let s := (config (config start 0 7).2 1 8).2
    let r ← read s 0 2 ⟨true, false, false, []⟩
    pure (r.1, r.2.1)) = (Except.ok (.ok, [0, 0]) : C (Status × List UInt8)) := by
  decide +kernel

/-- ... and when the completion comes, the processor stops. -/
example : (run start [.config 0 7, .config 1 8, .read 0 2 ⟨true, false, false, []⟩, .irq 7]).map
    (fun _ => ()) = .error .assertFail := by decide +kernel

end Verif.I2c
