# Formal model of the EV vehicle-control-unit firmware (Lean 4)

Source: `/repo/firmware/src` (C, pinned commit). Model, specification and
theorems: `/verif/lean/Verif`. Property list: `properties.jsonl`. Status per
property: `MANIFEST.json`. Mutation log: `seeded/LOG.jsonl`.

## Layout

| directory | content |
| --- | --- |
| `Verif/C/` | C-level vocabulary: undefined-behaviour outcomes, byte/word helpers, IEEE-754 binary32 arithmetic |
| `Verif/Model/` | one file per C module; every definition cites file and lines |
| `Verif/Spec/` | small specifications that do not mention the model (parsers, edge detectors, FIFO, encodings) |
| `Verif/Proofs/` | helper lemmas |
| `Verif/Props/` | the property theorems, each with a concrete `example` that meets its hypotheses |

## Modelling conventions

* Undefined behaviour (out-of-bounds access, NULL dereference, division by
  zero, out-of-range float-to-int conversion) is an explicit outcome
  `Except.error ub`, never totalised away.
* Fixed-width integers are `UInt8/16/32`/`BitVec`-like with C wrap-around where
  wrap-around can be observed; otherwise `Nat` with the bound proved.
* `float` is IEEE-754 binary32 with round-to-nearest-even, modelled as
  NaN | +-inf | rational value; every arithmetic result goes through the
  rounding function. Signed zero and NaN payloads are not modelled.
  Contraction into fused multiply-add is not modelled: the firmware is compiled
  with `-O0` (toolchain.cmake 45), and the only expression that could be
  contracted is covered for every choice by C158.
* HAL calls, FreeRTOS mutex results and the CRC unit are inputs: theorems
  quantify over all their outcomes.
* Interrupts and tasks are interleaved at the granularity stated in each model
  file (function call, or shared-variable access for the race properties).
* Logging text output is not modelled except in `Log`/`PcLog`.

## Plan per property

| id | what is modelled | how it is proved |
| --- | --- | --- |
| C01 | `VSM_Step` over all states and inputs | one-step lemma, induction over input list |
| C02 | `VSM_Step` + throttle/ECU outputs | case analysis per state, then induction |
| C03 | same | invariant by induction over steps |
| C04 | same, with history | history invariant by induction |
| C05 | same | exact transition characterisation; induction for the held button |
| C06 | HV states with 32-bit product | induction on steps in state |
| C07 | `handleTimedCondition` folded over samples | trailing-run specification, induction |
| C08 | `FaultManager_Step` | bitwise monotonicity, induction |
| C09 | `FaultManager_Step` folded over data history | refinement to independent predicate over histories |
| C10 | `VSM_Init`, `VehicleStateManager_Init`, static storage, `FaultManager_Step` with nullable pointer | expected to be violated: negation proved for the shipped wiring; partial theorem with the pointer set |
| C11 | frame decode + thresholds + default configuration | expected to be violated: unreachability theorems and witness; partial theorem for what holds |
| C12 | the header's fault-code table | finite table; negation for the colliding pair, partial for the drive faults |
| C13 | `TorqueMap_Interpolate` in binary32 | monotonicity of rounding; exact evaluation at break points |
| C14 | throttle tick + `CInverter_SendTorqueCommand` | range lemma in binary32 |
| C15 | small-step interleaving of throttle task and setters | exact set of late requests; negation of the strict form |
| C16-C21 | inverter driver calls as state machine emitting frames | invariants over call lists; encoding round trip |
| C22 | 11 inverter status handlers over full inverter/motor state | per-identifier equality with a field-table specification |
| C23 | 4 BMS handlers | same; scale deviations from the README recorded |
| C24-C27 | CAN driver: registration, RX ISR, TX queue/mailboxes | refinement to per-queue filtered streams; conservation invariant |
| C65 | same RX model, remote flag | negation by witness |
| C28-C29 | UART driver transmit side | byte-stream conservation invariant |
| C66 | UART receive side with half-transfer events | induction over bursts, negation for long bursts |
| C30-C35 | frame encoder/decoder, request loop | buffer invariant; refinement to a list parser |
| C36 | request handler | effect function equals specification; provenance by induction over batches |
| C67 | two ports writing one receive stream | negation by witness; positions of the greedy parse |
| C37-C41 | NMEA decoder with explicit buffer | UB witnesses; soundness by case analysis; partial completeness |
| C42-C45 | debug terminal | UB witnesses and safe-domain theorems |
| C46-C47 | telemetry and log framing | encode/decode round trips, stream refinement |
| C48-C51 | ADC driver and discrete sensors | event-history invariant; binary32 scaling lemmas |
| C68 | ADC driver with the shipped DMA width and request mode | buffer invariant over all event histories, through to publication |
| C52-C53 | wheel speed, periodic counters | edge-count specification; counter arithmetic |
| C54-C56 | SDC interleaving, PDM, task timer | invariants over event lists |
| C69 | SDC with the shipped edge selection | negation for every falling change; partial theorem for rising changes |
| C70 | interrupt entry points before initialisation | case analysis on initialisation state; negation for the SDC handler |
| C57-C58 | dependency registry, start-up sequence | registry invariant; sequence execution for every hardware outcome |
| C71-C72 | start-up sequence with running timers and task priorities, composed with the wheel speed model | expected to be violated: negation over all reached start-up states and all later histories |
| C73 | lamp pin with its two writers | exact level by induction; negation for every history |
| C74-C75 | ECU error line written by the state machine and by operator requests | invariants over interleavings; negations |
| C76-C78 | state machine, throttle task and inverter driver composed, interleaved at shared accesses | invariants over event lists; negations by witness and for every enabled run |
| C79-C80 | GPS task with uninitialised output object, log line, decoder | two-run relation by induction; variant on the read cursor; invariant over activations |
| C81-C82 | CRC unit fed by the HAL, PC tool's bit-serial function, frames | linearity and injectivity of the register shift; positions as powers of x, order and trinomials by kernel computation |
| C83-C86, C88 | PC tool: receive loop, both decoders, handlers (Python text as source) | tool = greedy parse; induction over the parse of a stream of frames; composition with C46, C47 |
| C87 | PC tool's encoder | equal to the firmware's frame, then C33 |
| C89 | start-up model's priorities with the kernel's clamp | negation for all priorities from 6 on; partial theorem below |
| C90-C91 | `CAN_SendMessage` and the vendor driver, one mailbox register access per step, any number of callers | mixture theorem for all frames and interruption points; conservation invariant without overlap |
| C92-C93 | every function that takes a mutex, as acquire, single accesses and release; any number of tasks | lock discipline invariant; atomicity and progress for disciplined programs, then every firmware function is disciplined |
| C94, C97 | task notification counter with any task body, composed with the state machine | executions = groups of notifications; negation under load; dwell-time lemma |
| C95 | state manager, fault manager | two-run relation by induction over histories |
| C96 | receive interrupt, queue, both receive loops, arrival times | no-overflow invariant from frame spacing; composition with C22, C23, C24 |
| C59-C60 | I2C, SPI lock handling | lock-state invariants, witnesses |
| C61, C99 | `Log_Print` into a bounded stream | prefix theorem; exact set of calls that do not return |
| C103 | composition `Model/Vehicle` of vehicle data, state manager, throttle, inverter commands, PC requests, terminal, PDM | erasure of the PC's events by a relation kept by every step |
| C104 | the same composition | simulation by `Model/Drive`, invariant for the fault word, then C09 and C77 |
| C105 | `Model/KernelList`: list.c at pointer level | refinement of the links to sequences with a reading position |
| C106 | `Model/Ready`: ready lists on that memory, bit map, priorities, inheritance, suspension, switching | invariant kept by every event |
| C108 | the same | false after a mutex is given back at a priority whose lender has timed out: class of failing states; the same invariant for all other histories |
| C107 | the same | measure: turns until the reading position reaches the task |
| C109 | `Model/SbWait`: waiting in stream buffers on task notifications | invariant over both program counters and notification states |
| C110 | `Model/QueueWait`: event lists, queue locks, blocking calls, interrupts | counting invariant: messages are covered by woken tasks or the lock count |
| C111 | `Model/Ready` | which list a task is in after every event; history induction |
| C112 | `Model/TimeOut`: time limits on top of `Model/Delay` | invariant in unbounded time |
| C113 | `Model/CanFilter`: filter bank registers of the three peripherals | register state as a function of the calls so far; every header |
| C114-C116 | `Model/CanBus`: mailboxes, arbitration, error counter, bus-off as the settings decide | false: losing runs; accounting, error budget and order by history induction |
| C117 | `Model/CanRx`: receive FIFO against the service routine, one register access at a time | invariant over all interleavings; ranking function for draining; timing from frame length |
| C118 | `Model/Clock`: PLL, bus, timer, CAN and UART registers | rational arithmetic for every crystal frequency, every baud rate, every PLL setting |
| C119 | `Model/Inherit`: taking, waiting, timing out and giving back of any number of mutexes on `Model/Ready` | invariant relating holders, waiting lists, calls and priorities; the conditions in `Ready.step` are discharged |
| C120 | `Model/Context`: `xPortPendSVHandler`, `vPortSVCHandler`, `pxPortInitialiseStack` instruction by instruction on the Cortex-M7's registers and memory, with exception entry and return | invariant: everything about a task that does not run is on its stack (`Parked`); preserved by every step of every other task |
| C121 | `Model/Sbrk`: `_sbrk` with the linker's symbols and wrapping addition | refinement to an ideal heap by induction over the requests |
| C122 | `Model/Notify`: the two critical sections of `ulTaskNotifyTake`, the functions that notify, `xTaskResumeAll` | invariant over all sequences of events; the totals by induction |
| C123 | `Model/Vehicle` with times (`Spec/Response`) | counts the samples of the periods after the onset, then as C104 |
| C124 | `Model/Board`: GPIO, EXTI and SYSCFG registers as bit vectors, every call of the start-up in order | what a sequence does to a pin is the fold of the calls naming it; the board's table is then checked call by call; levels by an invariant over every prefix |
| C125 | `Model/Board`: DMA control registers, ignored while the clock is off | the shipped order leaves every register alone; with the clocks first the fields are as needed for any prior contents |
| C126 | `Model/Reset`: the instructions of `Reset_Handler` on words of memory, the placement of the linker script | loop invariants, induction on the words left; total correctness |
| C127 | `Model/Vectors`: vector table, bodies of the handlers, numbers, every call that enables or sets a priority, NVIC registers as bit vectors | what a sequence of calls does to one interrupt, by induction; then the table entry by entry |
| C128 | `Model/Exti`: `EXTI->PR` and the handlers step by step, edges at any time | invariant over all interleavings; the handlers' ends by induction over the pins left |
| C129 | `Model/UartRx`: the receiving parts of the HAL's port and stream handlers and of the start, statement by statement, interrupting each other | the set of states reachable outside five places, as a table whose closure the kernel checks, and induction over the run; runs through each of the five places that fail |
| C130 | `Model/SimServer`: `create_log_msgs` | the pieces of a text put together again; decoding by C84 and C87 |
| C131 | `Model/Vehicle` (composition) | invariant of all runs: pointers set, torque in range, decoder ready, channels as shipped; the text that breaks the terminal is characterised |
| C132 | `Model/Rtc`: `rtc.c`, the HAL's four clock functions with their conversions, the calendar and its shadow registers | registers digit by digit; days counted from 1 January 2000 in `Spec/Rtc`, one second of the calendar is one second there; invariant over all interleavings; two failing classes over all dates |
| C133 | `Model/Car`: the receive queues of C96 and the whole control software of C122 in one machine | the control software's part of a history is a run of its own (projection); invariant: the battery's fields are those of the frames its task has taken, whatever others write; then C96 (nothing lost), C23 (which frame sets which field) and C123 (time) are composed |
| C134 | `Model/UartTx`: `UART_SendMessage`, `HAL_UART_Transmit_DMA`, `HAL_DMA_Start_IT`, the sending parts of the port's and the stream's handlers, statement by statement | invariant over all interleavings: five states of a transfer, and where task and handler may be in each; a second invariant without errors in reception; leads-to arguments over executions without end, with one execution that meets the assumptions |
| C135 | `Model/Vehicle`: state manager, fault manager, throttle, inverter driver, PC interface, interleaved at every access to shared data | simulation of the plain state machine by the interleaved one while every verdict is `NO_FAULT` (C09 and the invariant of C104), the documented way by induction over its phases, then an invariant of driving with the pedal value the throttle task holds; specification in `Spec/Healthy` |
| C136 | `Model/TorqueMap`, `Model/Throttle`, `Model/Inverter`; the exact curve in `Spec/Pedal` | bound on the rounding error of each operation (`rnd_err_le`) and of the rounded break points, added up per segment |
| C137 | `Model/Car`, `Model/Telemetry`, `Model/PcTool`; lines of the screen in `Spec/Screen` | invariant of C133's car run gives the published fields, C96 their freshness, then C86's frame-by-frame correspondence read line by line |
| C138 | `Model/Vehicle` with times; readings of the pedal in `Spec/Fresh` | invariant on what the throttle task holds during an activation (a reading of this period, or its torque), from the idle state at the timer interrupt; C136 for the number |
| C139 | `Model/Vehicle` with times; activations in `Spec/Heartbeat` | the enabled mode is kept by every event; an activation that ends has sent a frame (induction over the period) |
| C140 | `Model/Vehicle`; what the frames ask for, with lines across frames, in `Spec/Operator` | actions carried out ++ actions queued = actions asked for by the frames parsed so far (induction over the history, one terminal packet at a time by the lemma behind C43) |
| C141 | `Model/InvCar`: the receive queues of C96 and the control software of C122 in one machine, with the inverter's task; reports in `Spec/InvCar` | the vehicle data name the state in the last report taken (invariant); the state machine leaves the charging state for standby only on the ready state, and there is no torque before that (invariant over all histories) |
| C142 | `Model/Vehicle`, `Model/Telemetry`, `Model/PcTool` | C140, an invariant for the battery floats, and the displayed lines of C86 |
| C143 | `Model/SenseCar`: the sensor task (C51) and the control software of C122 in one machine; button levels in `Spec/SenseCar` | how far the state machine has come bounds the levels it has seen (invariant); those levels are a subsequence with repetitions of the readings |
| C144 | as C143, with times; travel of the pedal sensors in `Spec/SenseCar` | after a complete reading the pedal value stays below the limit while the pedal is held (induction over the history); then C138 |
| C145 | `Model/TimIrq`: status and enable register of a timer, the handler of the vendor library one register access at a time, timer events at any time | invariant over all interleavings; the handler ends by induction over its steps left; then C56 |
| C146 | `Model/AdcRegs`: the eight registers of the converter and the vendor functions that write them, field by field; their meaning (RM0410) in `Spec/AdcRegs` | bit-level lemmas for one field of any register contents, induction over the calls; pins by C124, times by C118 |
| C147 | `Model/PcTool` (encoder) and `Model/Vehicle`; a session of messages in `Spec/Session` | the bytes of encoded messages, cut anywhere, parse into the complete ones (induction over the session, C87); then C140 |
| C148 | `Model/Sdc`, `Model/Telemetry`, `Model/PcTool` | composition of C69 (what is published) with C86 (what the tool shows); its failure after a fall from C69 |
| C149 | `Model/Vehicle`, with the events of one task left out | frames with torque come from the throttle task (induction); the two failures by C135 on histories without the state manager and without writes |
| C150 | `Model/UartRegs` (HAL_UART_Init, UART_SetConfig on register bits), `Spec/UartLine` (the line as a function of real time, the sampling receiver of RM0410) | induction over the bytes sent: after each word the receiver looks for a start bit at a sample that lies in the stop bit of that word and before the next start; the tolerances 154 ≤ 10 b, 9 b ≤ 151 (in sample periods) place all samples of bit j inside bit j |
| C151 | `Model/Halt` (the three endless loops with their execution priorities) over `Model/Vectors` and `Model/CanBus` | levels of the enabled interrupts from C127; induction over what is requested afterwards; frames counted between mailboxes and bus |
| C152 | `Model/CanRegs` (HAL_CAN_Init, HAL_CAN_Start on register bits), `Spec/CanLine` (bit stuffing, the bus as a function of real time, the synchronising receiver of ISO 11898-1) | induction over time quanta: after every recessive-to-dominant edge the receiver counts from the quantum in which the edge was seen; stuffing keeps such edges at most 13 bits apart, in which time sender and receiver diverge by at most the jump width |
| C153 | `Spec/SensorFault` (what the four sensors show) over `Model/SenseCar` (sensor task beside all other tasks) | a condition on the published inputs that bad readings bring about, that failed readings and other tasks leave, held by induction over the history; the documented fault follows from it (with rounding), then C123 |
| C154 | `Spec/Deadline` (processor time between the events of `Model/Ready`) | by C108 and C106 every unit of work not owed to a switch belongs to a task at or above the priority; the account of a window by induction over the history, the first moment at which the task waits by its shortest prefix |
| C155 | `Model/ClockStart` (`SystemClock_Config`, `HAL_RCC_OscConfig`, `HAL_RCC_ClockConfig`, `HAL_PWREx_EnableOverDrive` as programs of single register accesses beside the hardware they wait for), `Spec/ClockLimits` (limits of datasheet and manual) | a proof outline: what is known of registers and flags at each point, shown to survive every hardware event and every step; the limits follow at each point |
| C156 | `Model/Whole` (receive queues, battery, inverter and sensor tasks beside the control software), `Spec/Whole` (last readings and reports at a moment, causes in these terms) | the data are at every moment what was last read and reported; samples and moments correspond one to one, so that C09 carries over; the start-up case shown false for every such history |
| C157 | as C156 | C156 excludes a fault, C135 gives the drive; button, inverter state and pedal value translated into last readings and reports |
| C158 | `Model/TorqueFused` (`TorqueMap_Interpolate` for any table and each way the compiler may join product and sum), `Spec/Table` (straight line between points) | relative rounding errors of difference, quotient, products and sum bounded for all floats; the ends exact because the weights there are exactly 0 and 1 |
| C159 | `Model/StartRace` (the init task as its steps with everything it makes and its log calls taken apart; tasks that do anything occurring in their code; kernel's choice; interrupts) | an invariant tying objects, tasks and locks to the position in start-up; the conditions on the program are checked at each of its finitely many positions; lower tasks hold no lock and so cannot inherit the init task's priority |
| C160 | `Model/RtcRate` (`MX_RTC_Init`, `HAL_RTC_MspInit`, `HAL_RTC_Init`; backup domain with prescalers and oscillator cycles, on top of `Model/Rtc`) | cycles counted by induction for all prescalers; the shipped combination shown to lose 2025 s a day; restart by cases over what the registers hold |
| C161 | `Model/Ready` (`vTaskDelete`, `prvCheckTasksWaitingTermination`) | which list a task is in after every event, by induction over histories; the count equals the length of the list of ended tasks |
| C162 | `Model/Term` | dialogue of a line written down in `Spec/Answers`; equality of effects by cases on the words, sessions by induction over packets (`run_lines`), frames by C45 |
| C163 | `Model/Memory`, `Model/Queue`, `Model/StreamBuffer`, `Model/Context` | all objects in one memory, each reaching everything behind its address; simulation of every lone object, induction over histories; stream buffers stay inside without assuming one sender |
| C164, C165 | `Model/BootLog` (the texts of start-up on top of `Model/StartRace` and `Model/LogStream`) | texts tied to the position in start-up by an invariant, room in the stream from the length of the report; C165 is false: no frame leaves after a failure, whatever follows |
| C166 | `Model/Uart`, `Model/UartTx`, `Model/BootLog` | false: bytes handed over against bytes accepted, by induction over histories (nothing about the hardware assumed in the continuation); the completion is held off by an invariant of the registers; the report's 53 frames exceed what a port takes |
| C102 | kernel tick counter and delayed lists | refinement to deadlines in unbounded time |
| C101 | interrupt priorities, BASEPRI, critical nesting | invariant over stacks of nested handlers |
| C100 | FreeRTOS queue storage and pointers | refinement to a bounded list |
| C98 | FreeRTOS stream buffer at byte granularity, any number of senders | position-modulo-size invariant; refinement to lists; loss theorem for overlapping senders |
| C62 | throttle interleaving with direction changes | witness; partial theorem without interference |
| C63-C64 | fault manager over all histories | unreachability from the exact status theorem |

No property is planned as "not applicable".

## Trusted base

* The Lean 4.33.0 kernel. No compiler trust: no `native_decide`, no `bv_decide`.
* The axioms `propext`, `Classical.choice` and `Quot.sound`; `AXIOMS.md` lists
  them for every theorem of the manifest. No axiom is added.
* Mathlib, only as checked by the kernel.
* The hand translation of the sources into `Verif/Model` (each definition cites
  the lines it translates), and the English reading of the specifications in
  `Verif/Spec` and of the theorem statements.
* Facts about the environment that the models take from documentation, listed
  below. Everything else about hardware and kernel is an input over which the
  theorems quantify.

Environment facts used:

| fact | where |
| --- | --- |
| bxCAN: mailbox pending from TXRQ until sent, register writes ignored meanwhile, registers kept afterwards, CODE names an empty mailbox | `Model/CanHal` |
| bxCAN: filter banks (which pass a header, which FIFO, split between CAN1 and CAN2); priority of mailboxes, NART, ABOM, TXFP; transmit error counter of CAN 2.0 | `Model/CanFilter`, `Model/CanBus` |
| CAN bit timing: BTR fields, sampling once per bit, hard synchronisation and resynchronisation, stuffing (ISO 11898-1) | `Spec/CanLine` |
| bxCAN: receive FIFO of three places, RFLM; CAN: shortest frame with gap 47 bits | `Model/CanRx`, `Spec/CanRx` |
| Clock tree of the reference manual: division factors of the register fields, timer clocks, SysTick, CAN bit timing, USART divider | `Model/Clock` |
| CRC unit: a byte write is XORed into the top of the register and shifted 8 times | `Model/Crc` |
| DMA transfers of the configured width; conversion sweep order. `Uart` and `Adc` take the streams as configured; C125 shows that the shipped start-up does not configure them | `Model/Adc`, `Model/Uart` |
| Registers of a peripheral whose clock is off read as zero and ignore writes; layout of the GPIO, EXTI, SYSCFG and DMA registers; `BSRR` | `Model/Board`, `Spec/Board` |
| Timers: an update event (overflow or `UG`) sets `UIF`; `SR` keeps the bits written as one | `Model/TimIrq` |
| EXTI: a line becomes pending on the configured edge; a write clears the bits written as one. `Sdc` takes the line as cleared on entry of its handler (C128) | `Model/Exti`, `Model/Sdc` |
| DMA: clearing `EN` of a running stream stops it and sets `TCIF`; a request is served only with `EN` set. USART: what `DMAR`, `EIE` and `IDLEIE` let through | `Model/UartRx` |
| DMA and USART, sending: a byte is moved when `EN` and `DMAT` are set, writing it clears `TC`, after the last one `EN` falls and `TCIF` rises; `TC` rises when the line is done | `Model/UartTx` |
| NVIC: `ISER`, `ICER`, `IP`, the binary point of `PRIGROUP`, the lowest number first among equal priorities; which device raises which interrupt | `Model/Vectors`, `Spec/Vectors`, `Model/Exti` |
| RTC: the calendar counts months, leap years and weekdays; reading `SSR` or `TR` holds the higher shadow registers until `DR` is read | `Model/Rtc` |
| FreeRTOS: mutex and notification semantics; priority clamp; time slicing among equal priorities | `Model/Sdc`, `TaskTimer`, `Ticks`, `Locks`, `Startup` |
| FreeRTOS: critical sections exclude each other (C101, from the processor's rule for taking interrupts); the storage of queues and stream buffers is modelled (`Queue`, `StreamBuffer`), and lists stand for it in `Can`, `Spi`, `LogStream`, `Uart`, `Wheelspeed` (justified by C98, C100) | `Model/Queue`, `StreamBuffer`, `Critical` |
| FreeRTOS `portMAX_DELAY` waits do not time out (`INCLUDE_vTaskSuspend` is set) | `Model/Drive`, `Sdc` where stated |
| `gcc` for ARM: little endian, `char` unsigned where it matters, bit-fields and unions laid out from the least significant end | `Model/Inverter`, `Bms`, `Nmea` |
| newlib `snprintf` on the inputs the code passes | `Model/Gps`, `Term` |
| CAN: shortest data frame 44 bits, 3 bits between frames, 1 Mbit/s | `Props/CanFresh` |
| IEEE-754 binary32, round to nearest even, no contraction | `C/F32` |

## Sources and their models

`/repo/firmware/src/vcu`:

| source | model | left out |
| --- | --- | --- |
| startup/initialize.c | `Startup`, `Config` | log text |
| startup/interrupts.c | `Startup`, `Wheelspeed`, `TaskTimer`, `TimIrq` | |
| startup/welcomemsg.c | | text only |
| vehicleLogic/stateManager/stateMachine.c | `Vsm`, `StateManager`, `Drive` | log text |
| vehicleLogic/stateManager/faultManager.c | `FaultManager` | |
| vehicleLogic/stateManager/vehicleStateManager.c | `StateManager`, `Vehicle` | |
| vehicleLogic/throttleController/*.c | `Throttle`, `TorqueMap`, `Drive`, `Vehicle` | |
| vehicleLogic/watchdogTrigger/watchdogTrigger.c | `Periodic`, `SharedOutputs` | |
| vehicleInterface/vehicleState/vehicleState.c | `VehicleState` (data), `Locks` (mutex); elsewhere lock results are inputs | |
| vehicleInterface/vehicleControl/vehicleControl.c | `Drive`, `Pdm`, `SharedOutputs`, `Vehicle` | |
| vehicleInterface/config/*, DefaultConfigData | `Config`, `Startup` | pin numbers |
| device/bms, device/inverter | `Bms`, `Inverter` | log text |
| device/pdm, sdc, wheelspeed, gps, dashboard_output, discretesense | `Pdm`, `Sdc`, `Wheelspeed`, `Gps`, `SharedOutputs`, `DiscreteSense` | |
| device/pcinterface/*.c | `PcRequests`, `Term`, `Telemetry`, `LogStream`, `Periodic`, `CanHal` (debug frame), `Vehicle` | |

`/repo/firmware/src/system-lib`:

| source | model | left out |
| --- | --- | --- |
| adc, can, crc, depends, i2c, logging, spi, tasktimer | `Adc`, `Can`, `CanHal`, `Crc`, `Depends`, `I2c`, `LogStream`, `Spi`, `TaskTimer`, `Ticks`, `Locks` | error logging |
| uart/uart.c | `Uart`; the registers in `UartRegs` (and `Clock`), the DMA streams in `Board`, the HAL below in `UartRx`, `UartTx` | |
| uart/msgframe*.c | `MsgFrame` | |
| uart/nmea*.c | `Nmea` | |
| gpio | inside the users (`Pdm`, `SharedOutputs`, `Sdc`); the HAL below it in `Board` | |
| rtc | `Rtc`, with the HAL's functions below it | sub-seconds, daylight saving, time-outs; unused by the firmware |

`/repo/firmware/src/cube-proj`: only the parts the drivers rely on
(`HAL_CAN_*` mailbox and FIFO handling, ADC/DMA and timer configuration, interrupt
vectors) and of FreeRTOS the data paths of `queue.c` (`Queue`) and `stream_buffer.c`
(`StreamBuffer`), the critical sections of `port.c` (`Critical`), the linked lists of `list.c`
(`KernelList`) and of `tasks.c` the timed waits (`Delay`), time limits (`TimeOut`) and the choice of the running task
(`Ready`), the waiting in queues and mutexes (`QueueWait`) and in stream buffers (`SbWait`), and task notifications (`Notify`). The clock tree settings are in `Clock`, the set-up of pins and DMA streams in `Board`, the handler of reset and the linker's placement in `Reset`, the vector table, the handlers and the interrupt controller in `Vectors`, the external lines in `Exti`, reception on the serial ports inside the HAL in `UartRx`, sending in `UartTx`. The switch of tasks (`Context`) is modelled with its assembly and the processor's part in it, the C library's heap in `Sbrk`. The kernel's own heap, which is not used,
and the rest of the vendor code are not modelled. `/repo/tools/ecu-config`: `decode_common.py`, `encode_common.py`,
`log_view.py` in `PcTool`; `create_log_msgs` of `sim-server.py` in `SimServer`. Of `serial_common.py` the receiving loop is part of `PcTool`; its sending thread is not modelled.
