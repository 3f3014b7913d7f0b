import Verif.Model.Clock

set_option autoImplicit false

/-!
# Setting up the clocks, step by step

`SystemClock_Config` (cube-proj/Core/Src/main.c 175-227) with `HAL_RCC_OscConfig`, `HAL_RCC_ClockConfig`
(stm32f7xx_hal_rcc.c 342-694, 722-856) and `HAL_PWREx_EnableOverDrive` (stm32f7xx_hal_pwr_ex.c 258-292) as
programs of single register accesses, beside the hardware that they wait for: oscillators and the PLL come
up, the regulator reaches its modes and the clock switch is carried out at moments of their own.

Hardware facts used (STM32F76x reference manual, RCC, PWR, FLASH): the reset values of the registers; an
oscillator can become ready only while it is switched on, the PLL only while it and its source run;
over-drive becomes ready only when enabled, and switching to it only after that; the system clock changes to
the selected source only when that source is ready.

Simplifications: waits may give up at any moment at which what is waited for has not happened (in the code:
after the time-outs of stm32f7xx_hal_rcc.h 1175-1179 and stm32f7xx_hal_pwr_ex.c 42); parts of
`HAL_RCC_OscConfig` for the oscillators that main.c 192 does not name (HSI, LSE) and for states that main.c
193-195 does not ask for are left out, as are the enabling of the clock of PWR and of the access to the
backup domain, which change no clock.
-/

namespace Verif.ClockStart

/-- Source of the system clock: SW and SWS of RCC_CFGR. stm32f7xx_hal_rcc.h 201-214. -/
inductive Src
  | hsi | hse | pll
deriving DecidableEq, Repr

/-- The registers that the set-up writes: HSEON and PLLON of RCC_CR, LSION of RCC_CSR, RCC_PLLCFGR, the
prescalers of RCC_CFGR and its SW, LATENCY of FLASH_ACR, VOS, ODEN and ODSWEN of PWR_CR1. main.c 187-223. -/
structure Regs where
  hseOn : Bool
  lsiOn : Bool
  pllOn : Bool
  pll : Nat
  cfgr : Nat
  sw : Src
  latency : Nat
  vos : Nat
  odEn : Bool
  odSwEn : Bool
deriving DecidableEq, Repr

/-- What the hardware reports: HSERDY, LSIRDY, PLLRDY, ODRDY, ODSWRDY and SWS. The flags read in
stm32f7xx_hal_rcc.c 363-383, 488, 611-642, 812 and stm32f7xx_hal_pwr_ex.c 270-284. -/
structure Flags where
  hse : Bool
  lsi : Bool
  pll : Bool
  od : Bool
  odSw : Bool
  sws : Src
deriving DecidableEq, Repr

/-- Registers and hardware. Hardware; accessed from main.c 175-227. -/
structure Hw where
  r : Regs
  h : Flags
deriving DecidableEq, Repr

/-- After reset (hardware; `SystemInit`, Core/Src/system_stm32f7xx.c 150-163, changes none of it): the HSI
drives the system; PLLCFGR is 0x24003010, PWR_CR1 0xC000. -/
def reset : Hw :=
  { r := ⟨false, false, false, 0x24003010, 0, .hsi, 0, 3, false, false⟩
    h := ⟨false, false, false, false, false, .hsi⟩ }

/-- What may happen in the hardware at any moment. Waited for in stm32f7xx_hal_rcc.c 383, 488, 611, 642, 812
and stm32f7xx_hal_pwr_ex.c 270, 284. -/
inductive Ev
  | hseUp | lsiUp | pllLock | pllStop | odUp | odSwUp | swap
deriving DecidableEq, Repr

/-- Whether the source of the PLL runs: bit 22 of PLLCFGR selects the HSE. Hardware; main.c 196. -/
def pllFed (s : Hw) : Bool := Clock.field s.r.pll 22 1 == 0 || s.h.hse

/-- Whether a source can take over. Hardware; see the note at stm32f7xx_hal_rcc.c 711-714. -/
def ready (s : Hw) : Src → Bool
  | .hsi => true
  | .hse => s.h.hse
  | .pll => s.h.pll

/-- The hardware acts. Hardware (reference manual, RCC and PWR); the flags of stm32f7xx_hal_rcc.c 363-812. -/
def hw (s : Hw) : Ev → Hw
  | .hseUp => if s.r.hseOn then { s with h := { s.h with hse := true } } else s
  | .lsiUp => if s.r.lsiOn then { s with h := { s.h with lsi := true } } else s
  | .pllLock => if s.r.pllOn && pllFed s then { s with h := { s.h with pll := true } } else s
  | .pllStop => if s.r.pllOn then s else { s with h := { s.h with pll := false } }
  | .odUp => if s.r.odEn then { s with h := { s.h with od := true } } else s
  | .odSwUp => if s.r.odSwEn && s.h.od then { s with h := { s.h with odSw := true } } else s
  | .swap => if ready s s.r.sw then { s with h := { s.h with sws := s.r.sw } } else s

/-- A program: a register write, a wait that may time out, a branch, the normal end, or `Error_Handler`.
main.c 175-227, 1073-1082. -/
inductive Prog
  | done
  | error
  | act (g : Regs → Regs) (k : Prog)
  | wait (c : Hw → Bool) (k : Prog)
  | test (c : Hw → Bool) (a b : Prog)

/-- `MODIFY_REG(reg, mask, v)`, CMSIS stm32f7xx.h; used in stm32f7xx_hal_rcc.c 761-846. -/
def modifyReg (reg mask v : Nat) : Nat := (reg ^^^ (reg &&& mask)) ||| v

/-- `HAL_RCC_OscConfig`, the part for the HSE with HSEState = RCC_HSE_ON: stm32f7xx_hal_rcc.c 358-406. -/
def oscHse (k : Prog) : Prog :=
  .test (fun s => s.h.sws == .hse || (s.h.sws == .pll && Clock.field s.r.pll 22 1 == 1)) k
    (.act (fun r => { r with hseOn := true }) (.wait (fun s => s.h.hse) k))

/-- `HAL_RCC_OscConfig`, the part for the LSI with LSIState = RCC_LSI_ON: stm32f7xx_hal_rcc.c 473-494. -/
def oscLsi (k : Prog) : Prog :=
  .act (fun r => { r with lsiOn := true }) (.wait (fun s => s.h.lsi) k)

/-- `HAL_RCC_OscConfig`, the part for the PLL with PLLState = RCC_PLL_ON: stm32f7xx_hal_rcc.c 587-692. `v` is
the value for PLLCFGR. -/
def oscPll (v : Nat) (k : Prog) : Prog :=
  .test (fun s => s.h.sws != .pll)
    (.act (fun r => { r with pllOn := false })
      (.wait (fun s => !s.h.pll)
        (.act (fun r => { r with pll := v })
          (.act (fun r => { r with pllOn := true })
            (.wait (fun s => s.h.pll) k)))))
    (.test (fun s => s.r.pll == v) k .error)

/-- `HAL_PWREx_EnableOverDrive`, stm32f7xx_hal_pwr_ex.c 258-292. -/
def overDrive (k : Prog) : Prog :=
  .act (fun r => { r with odEn := true })
    (.wait (fun s => s.h.od)
      (.act (fun r => { r with odSwEn := true })
        (.wait (fun s => s.h.odSw) k)))

/-- `HAL_RCC_ClockConfig` for all four clocks with the PLL as source: stm32f7xx_hal_rcc.c 722-856. The
prescalers are the values of RCC_SYSCLK_DIVx and RCC_HCLK_DIVx. -/
def clockConfig (ahb apb1 apb2 latency : Nat) (k : Prog) : Prog :=
  let rest : Prog :=
    .act (fun r => { r with cfgr := modifyReg r.cfgr 0x1C00 0x1C00 })
      (.act (fun r => { r with cfgr := modifyReg r.cfgr 0xE000 (0x1C00 <<< 3) })
        (.act (fun r => { r with cfgr := modifyReg r.cfgr 0xF0 ahb })
          (.test (fun s => s.h.pll)
            (.act (fun r => { r with sw := .pll })
              (.wait (fun s => s.h.sws == .pll)
                (.act (fun r => if latency < r.latency then { r with latency := latency } else r)
                  (.act (fun r => { r with cfgr := modifyReg r.cfgr 0x1C00 apb1 })
                    (.act (fun r => { r with cfgr := modifyReg r.cfgr 0xE000 (apb2 <<< 3) }) k)))))
            .error)))
  .test (fun s => s.r.latency < latency)
    (.act (fun r => { r with latency := latency })
      (.test (fun s => s.r.latency == latency) rest .error))
    rest

/-- `SystemClock_Config`, main.c 175-227: voltage scale 1 (VOS = 3), the HSE, the LSI, the PLL, over-drive,
then RCC_SYSCLK_DIV1, RCC_HCLK_DIV4, RCC_HCLK_DIV2 and FLASH_LATENCY_7. -/
def setup : Prog :=
  .act (fun r => { r with vos := 3 })
    (oscHse (oscLsi (oscPll Clock.shippedPll (overDrive (clockConfig 0 0x1400 0x1000 7 .done)))))

/-- One step of the processor or of the hardware. The code of main.c 175-227; hardware. -/
inductive Step : Hw × Prog → Hw × Prog → Prop
  | hw (s : Hw) (p : Prog) (e : Ev) : Step (s, p) (hw s e, p)
  | act (s : Hw) (g : Regs → Regs) (k : Prog) : Step (s, .act g k) ({ s with r := g s.r }, k)
  | go (s : Hw) (c : Hw → Bool) (k : Prog) : c s = true → Step (s, .wait c k) (s, k)
  | timeout (s : Hw) (c : Hw → Bool) (k : Prog) : c s = false → Step (s, .wait c k) (s, .error)
  | yes (s : Hw) (c : Hw → Bool) (a b : Prog) : c s = true → Step (s, .test c a b) (s, a)
  | no (s : Hw) (c : Hw → Bool) (a b : Prog) : c s = false → Step (s, .test c a b) (s, b)

/-- The situations that a start from reset can be in. main.c 109-115. -/
inductive Reach : Hw × Prog → Prop
  | init : Reach (reset, setup)
  | step {x y : Hw × Prog} : Reach x → Step x y → Reach y

end Verif.ClockStart
