import Verif.C.Basic

set_option autoImplicit false

/-!
# I2C driver: system-lib/i2c/i2c.c

Calls are atomic with respect to each other because of `busyMutex`; what can happen inside a call
is that the completion interrupt of the transfer it starts arrives before the task takes the
transfer semaphore (`early`) or while it waits for it (`late`). Completions that arrive after the
call has returned are the separate operation `irq`.
-/

namespace Verif.I2c

/-- `DMA_BUF_LEN` (i2c.c 27). -/
def dmaBufLen : Nat := 2048

/-- `I2C_Status_T` (i2c.h 29-40). -/
inductive Status where
  | ok | notReady | errorDepends | errorInvalidBus | errorHal | errorOs | errorBusy
  | errorTimeout | errorDataLen
deriving DecidableEq, Repr

/-- A FreeRTOS mutex used as a semaphore: its count and whether a task holds it. i2c.c 145, 150; FreeRTOS queue.c
473-490. -/
structure Mutex where
  avail : Bool
  holder : Bool
deriving DecidableEq, Repr

/-- `struct I2C_Instance` (i2c.c 32-47). `busy` says whether `busyMutex` is held. `buf` is the part of
`dmaBuf` the transfers touch. A handle is a number, `none` is null. -/
structure Dev where
  inUse : Bool
  handle : Option Nat
  busy : Bool
  xfer : Mutex
  buf : List UInt8
deriving DecidableEq, Repr

/-- Both interfaces (i2c.c 49). -/
structure St where
  dev0 : Dev
  dev1 : Dev
deriving DecidableEq, Repr

/-- Zeroed memory (i2c.c 108-109). -/
def zeroDev : Dev := ⟨false, none, false, ⟨false, false⟩, List.replicate dmaBufLen 0⟩

/-- After `I2C_Init` (i2c.c 102-114). -/
def start : St := ⟨zeroDev, zeroDev⟩

/-- `&i2cInstances[device]` (i2c.c 49, 132, 169, 220). -/
def getDev (s : St) : Nat → Option Dev
  | 0 => some s.dev0
  | 1 => some s.dev1
  | _ => none

/-- Assignment to an interface (i2c.c 49). -/
def setDev (s : St) (d : Nat) (v : Dev) : St :=
  match d with
  | 0 => { s with dev0 := v }
  | _ => { s with dev1 := v }

/-- `I2C_Config` (116-158). Both semaphores are created as mutexes: available, without holder
(FreeRTOS queue.c 473-490). -/
def config (s : St) (d handle : Nat) : Status × St :=
  match getDev s d with
  | none => (.errorInvalidBus, s)
  | some v =>
    if v.inUse then (.errorInvalidBus, s)
    else (.ok, setDev s d ⟨true, some handle, false, ⟨true, false⟩, List.replicate dmaBufLen 0⟩)

/-- `xSemaphoreGiveFromISR` on a mutex (FreeRTOS queue.c 1108-1166): asserts that no task holds
it; when it is available already nothing changes. -/
def giveFromIsr (m : Mutex) : C Mutex :=
  if m.holder then .error .assertFail else .ok { m with avail := true }

/-- `xSemaphoreTake` by the calling task with the timeout of 5 ms: `late` says whether the
completion interrupt arrives while it waits. i2c.c 198, 249. -/
def takeXfer (m : Mutex) (late : Bool) : C (Bool × Mutex) :=
  if m.avail then .ok (true, ⟨false, true⟩)
  else if late then do
    let _ ← giveFromIsr m
    .ok (true, ⟨false, true⟩)
  else .ok (false, m)

/-- `handleToDevice` (i2c.c 52-62): the loop reads `handle->Instance` of every interface before looking
at `inUse`. -/
def handleToDevice (s : St) (h : Nat) : C (Option Nat) :=
  match s.dev0.handle with
  | none => .error .nullDeref
  | some h0 =>
    if h0 = h ∧ s.dev0.inUse then .ok (some 0)
    else
      match s.dev1.handle with
      | none => .error .nullDeref
      | some h1 => if h1 = h ∧ s.dev1.inUse then .ok (some 1) else .ok none

/-- `I2C_XferCplt_ISR` (i2c.c 69-79) for a completion on the peripheral `h`. -/
def irq (s : St) (h : Nat) : C St :=
  match handleToDevice s h with
  | .error e => .error e
  | .ok none => .ok s
  | .ok (some d) =>
    match getDev s d with
    | none => .ok s
    | some v =>
      match giveFromIsr v.xfer with
      | .error e => .error e
      | .ok m => .ok (setDev s d { v with xfer := m })

/-- What the hardware does during a call: whether the transfer could be started, when its
completion interrupt arrives, and the bytes the DMA has written by the time the call looks. `HAL_I2C_Master_Transmit_DMA`,
`HAL_I2C_Master_Receive_DMA` at i2c.c 187-195, 237-245. -/
structure Hw where
  started : Bool
  early : Bool
  late : Bool
  bytes : List UInt8
deriving DecidableEq, Repr

/-- The transfer and its wait (i2c.c 180-205, 233-259): an early completion interrupt, then the take. -/
def wait (m : Mutex) (hw : Hw) : C (Bool × Mutex) := do
  let m ← if hw.early then giveFromIsr m else .ok m
  takeXfer m hw.late

/-- `xSemaphoreGive(i2c->busyMutex)`. i2c.c 178-206, 230-260. -/
def give (v : Dev) : Dev := { v with busy := false }

/-- The part of `I2C_Read` after the interface is known (i2c.c 219-262), on that interface: status,
bytes copied to the caller, interface. -/
def readDev (v : Dev) (len : UInt16) (hw : Hw) : C (Status × List UInt8 × Dev) :=
  if !v.inUse then .error .assertFail -- null semaphore
  else if v.busy then .ok (.errorBusy, [], v)
  else
    let v := { v with busy := true }
    if dmaBufLen ≤ len.toNat then .ok (.errorDataLen, [], give v)
    else if !hw.started then .ok (.errorHal, [], give v)
    else
      let v := { v with buf := hw.bytes ++ v.buf.drop hw.bytes.length }
      match wait v.xfer hw with
      | .error e => .error e
      | .ok (got, m) =>
        let v := { v with xfer := m }
        if got then .ok (.ok, v.buf.take len.toNat, give v) else .ok (.errorTimeout, [], give v)

/-- The part of `I2C_Write` after the interface is known (i2c.c 168-208). -/
def writeDev (v : Dev) (data : List UInt8) (len : UInt16) (hw : Hw) : C (Status × Dev) :=
  if !v.inUse then .error .assertFail -- null semaphore
  else if v.busy then .ok (.errorBusy, v)
  else
    let v := { v with busy := true }
    if dmaBufLen ≤ len.toNat then .ok (.errorDataLen, give v)
    else
      let v := { v with buf := data.take len.toNat ++ v.buf.drop len.toNat }
      if !hw.started then .ok (.errorHal, give v)
      else
        match wait v.xfer hw with
        | .error e => .error e
        | .ok (got, m) =>
          let v := { v with xfer := m }
          if got then .ok (.ok, give v) else .ok (.errorTimeout, give v)

/-- `I2C_Read` (i2c.c 211-263). -/
def read (s : St) (d : Nat) (len : UInt16) (hw : Hw) : C (Status × List UInt8 × St) :=
  match getDev s d with
  | none => .ok (.errorInvalidBus, [], s)
  | some v =>
    match readDev v len hw with
    | .error e => .error e
    | .ok (r, bs, v') => .ok (r, bs, setDev s d v')

/-- `I2C_Write` (i2c.c 160-209); `data` is the caller's array of at least `len` bytes. -/
def write (s : St) (d : Nat) (data : List UInt8) (len : UInt16) (hw : Hw) : C (Status × St) :=
  match getDev s d with
  | none => .ok (.errorInvalidBus, s)
  | some v =>
    match writeDev v data len hw with
    | .error e => .error e
    | .ok (r, v') => .ok (r, setDev s d v')

/-- Operations on the driver. i2c.c 69-79, 116-263. -/
inductive Op where
  | config (d handle : Nat)
  | read (d : Nat) (len : UInt16) (hw : Hw)
  | write (d : Nat) (data : List UInt8) (len : UInt16) (hw : Hw)
  | irq (h : Nat)

/-- One operation. i2c.c 69-79, 116-263. -/
def apply (s : St) : Op → C (Status × St)
  | .config d h => .ok (config s d h)
  | .read d len hw =>
    match read s d len hw with
    | .error e => .error e
    | .ok (r, _, s') => .ok (r, s')
  | .write d data len hw => write s d data len hw
  | .irq h =>
    match irq s h with
    | .error e => .error e
    | .ok s' => .ok (.ok, s')

/-- A history. i2c.c 69-79, 116-263. -/
def run : St → List Op → C St
  | s, [] => .ok s
  | s, o :: os => do
    let r ← apply s o
    run r.2 os

end Verif.I2c
