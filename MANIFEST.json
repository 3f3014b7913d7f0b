{
 "claims": [
  {
   "property": "C01",
   "status": "proved",
   "theorems": [
    "Verif.Vsm.C01_fault_absorbing"
   ],
   "note": "all input histories from power-up"
  },
  {
   "property": "C02",
   "status": "proved",
   "theorems": [
    "Verif.Vsm.C02_fault_is_safe",
    "Verif.Vsm.C02_any_fault_from_lvReady",
    "Verif.StateMgr.C02_end_to_end"
   ],
   "note": "the torque/ECU-error outputs change on the step after entry into FAULT; the statement says within the following step"
  },
  {
   "property": "C03",
   "status": "proved",
   "theorems": [
    "Verif.Vsm.C03_torque_only_in_forward",
    "Verif.Vsm.C03_ecu_error_line"
   ],
   "note": ""
  },
  {
   "property": "C04",
   "status": "proved",
   "theorems": [
    "Verif.Vsm.C04_ordered_startup",
    "Verif.StateMgr.C04_end_to_end"
   ],
   "note": "C04_end_to_end states it for the wired state-manager task in terms of the vehicle data it copies."
  },
  {
   "property": "C05",
   "status": "proved",
   "theorems": [
    "Verif.Vsm.C05_edge_triggered",
    "Verif.Vsm.C05_held_button_acts_once"
   ],
   "note": ""
  },
  {
   "property": "C06",
   "status": "proved",
   "theorems": [
    "Verif.Vsm.C06_hv_dwell",
    "Verif.Vsm.C06_hv_charge",
    "Verif.Vsm.C06_wrap_never_leaves_hvActive"
   ],
   "note": "exact for configurations whose product does not wrap; the wrapping case is characterised by the third theorem"
  },
  {
   "property": "C07",
   "status": "proved",
   "theorems": [
    "Verif.FaultMgr.C07_debounce_exact",
    "Verif.FaultMgr.C07_limit_max_never_fails"
   ],
   "note": "exact for limits below 65535; the second theorem shows a limit of 65535 never trips"
  },
  {
   "property": "C08",
   "status": "proved",
   "theorems": [
    "Verif.FaultMgr.C08_faults_latch",
    "Verif.FaultMgr.C08_fault_status_latches"
   ],
   "note": ""
  },
  {
   "property": "C09",
   "status": "proved",
   "theorems": [
    "Verif.FaultMgr.C09_each_fault_bit",
    "Verif.FaultMgr.C09_status_exact"
   ],
   "note": ""
  },
  {
   "property": "C10",
   "status": "partial",
   "theorems": [
    "Verif.StateMgr.C10_shipped_wiring_dereferences_null",
    "Verif.StateMgr.C10_wired_runs_partial"
   ],
   "note": "false as stated for the shipped wiring (negation proved); the partial theorem proves it once the fault manager's vehicle-data pointer is set"
  },
  {
   "property": "C100",
   "status": "proved",
   "theorems": [
    "Verif.Queue.C100_fifo",
    "Verif.Queue.C100_empty"
   ],
   "note": "For every length, item size, storage content and sequence of operations; refinement of the circular storage to a bounded list. Operations are atomic (critical sections); waiting lists are not modelled."
  },
  {
   "property": "C101",
   "status": "proved",
   "theorems": [
    "Verif.Critical.C101_exclusive",
    "Verif.Critical.C101_responsive"
   ],
   "note": "For the shipped priorities and kernel calls of the handlers. The handlers keep their sections balanced (hypothesis Disciplined), as the kernel's FromISR functions do."
  },
  {
   "property": "C102",
   "status": "proved",
   "theorems": [
    "Verif.Delay.C102_exact",
    "Verif.Delay.C102_wait"
   ],
   "note": "Refinement of the two delayed lists and the wrapping counter to deadlines in unbounded time. Ticks while the scheduler is suspended (made up for on resumption) are not modelled; the linked lists are lists."
  },
  {
   "property": "C103",
   "status": "proved",
   "theorems": [
    "Verif.Vehicle.C103_torque_unaffected",
    "Verif.Vehicle.C103_pc_reach"
   ],
   "note": "Erasure of the PC's events from a history of the composed model, given the same schedule and lock outcomes. A history in which the terminal corrupts memory (C42) has no defined outcome and is excluded."
  },
  {
   "property": "C104",
   "status": "proved",
   "theorems": [
    "Verif.Vehicle.C104_fault_ends_torque"
   ],
   "note": "For the correctly wired state manager (the shipped wiring fails earlier, C10). Composition of C09, the state machine and C77 over the interleaved model by simulation."
  },
  {
   "property": "C105",
   "status": "proved",
   "theorems": [
    "Verif.KList.C105_sequences",
    "Verif.KList.C105_head",
    "Verif.KList.C105_sorted",
    "Verif.KList.others_untouched"
   ],
   "note": "Pointer-level model of list.c: the pointers of items in no list are arbitrary. Refinement to sequences with a reading position. Operations are one step (critical sections, C101)."
  },
  {
   "property": "C106",
   "status": "proved",
   "theorems": [
    "Verif.Ready.C106_never_fails",
    "Verif.Ready.C106_switch_right",
    "Verif.Ready.C106_right_list"
   ],
   "note": "Invariant over pointer-level ready lists, bit map and priorities. Which task an event or a tick wakes is an input; one mutex at a time (C93)."
  },
  {
   "property": "C107",
   "status": "proved",
   "theorems": [
    "Verif.Ready.C107_fair",
    "Verif.Ready.C107_tick_slices"
   ],
   "note": "Decreasing measure on the reading position of the ready list. The bound 2N-1 is attained (example)."
  },
  {
   "property": "C108",
   "status": "partial",
   "theorems": [
    "Verif.Ready.C108_right_unless_pending_partial",
    "Verif.Ready.C108_right_after_tick_partial",
    "Verif.Ready.C108_right_at_once_partial",
    "Verif.Ready.C108_stale_give",
    "Verif.Ready.C108_ticks_do_not_help"
   ],
   "note": "False as stated: a task that inherited a priority from a task whose wait has timed out, and gives the mutex to a task not above its own priority, goes on below ready tasks and no switch is asked for (queue.c 842-858), however many ticks pass. Proved for every history without such a give. C108_right_at_once_partial also needs interrupt routines that pass the wish to switch on; those of sdc.c, spi.c and i2c.c pass NULL. That the processor serves a pending PendSV is not modelled."
  },
  {
   "property": "C109",
   "status": "proved",
   "theorems": [
    "Verif.SbWait.C109_never_fails",
    "Verif.SbWait.C109_reader_not_forgotten",
    "Verif.SbWait.C109_reader_told",
    "Verif.SbWait.C109_writer_goes_on",
    "Verif.SbWait.C109_writer_not_forgotten",
    "Verif.SbWait.C109_no_notification_lost",
    "Verif.SbWait.C109_wait_ends_with_data",
    "Verif.SbWait.C109_send_all_or_late"
   ],
   "note": "The trigger level is at least 1, as stream_buffer.c 299-301 enforces. With a task as the writer a receive call can be told of bytes it has already read and return nothing early (example)."
  },
  {
   "property": "C11",
   "status": "partial",
   "theorems": [
    "Verif.FaultMgr.C11_limits_violated",
    "Verif.FaultMgr.C11_limits_partial",
    "Verif.FaultMgr.C11_current_voltage_faults_unreachable",
    "Verif.FaultMgr.C11_fault_before_first_pack_frame"
   ],
   "note": "false as documented: over-current and cell over-voltage are unreachable, the charge limit acts at 20 % and a sample before the first pack frame faults for good; the temperature limit is exact"
  },
  {
   "property": "C110",
   "status": "proved",
   "theorems": [
    "Verif.QueueWait.C110_no_lost_wakeup",
    "Verif.QueueWait.C110_asleep_only_if_none",
    "Verif.QueueWait.C110_free_mutex_has_taker",
    "Verif.QueueWait.C110_woken_looks",
    "Verif.QueueWait.C110_highest_first",
    "Verif.QueueWait.C110_behind_equals",
    "Verif.QueueWait.C110_first_is_woken",
    "Verif.QueueWait.C110_fails_only_late",
    "Verif.QueueWait.C110_results"
   ],
   "note": "Hypothesis: at most 127 places (the lock count is an int8_t; with 200 places and 128 interrupts while the queue is locked a wake-up is lost, example) and no queue that interrupts both fill and empty. The firmware's longer queues are only polled. Priorities are constant here; inheritance is in C106."
  },
  {
   "property": "C111",
   "status": "proved",
   "theorems": [
    "Verif.Ready.C111_woken_can_run",
    "Verif.Ready.C111_only_own_call",
    "Verif.Ready.C111_sleeps_until_named",
    "Verif.Ready.C111_woken_is_served"
   ],
   "note": "On the pointer-level ready lists of C106. Which task an event wakes is an input here; C109 and C110 say which."
  },
  {
   "property": "C112",
   "status": "proved",
   "theorems": [
    "Verif.TimeOut.C112_never_fails",
    "Verif.TimeOut.C112_gives_up_exactly",
    "Verif.TimeOut.C112_not_before",
    "Verif.TimeOut.C112_awake_in_time",
    "Verif.TimeOut.C112_sleeps_through",
    "Verif.TimeOut.C112_no_limit"
   ],
   "note": "Composed with the delayed lists of C102. Ticks that a stream buffer call loses between looking and sleeping are slept in addition (example). If a task is kept from looking for more than 2^32 ticks the check can be wrong (example)."
  },
  {
   "property": "C113",
   "status": "proved",
   "theorems": [
    "Verif.CanFilter.C113_every_bus_heard",
    "Verif.CanFilter.C113_order_matters"
   ],
   "note": "Register level, from any register contents; that INAK follows INRQ in time is an input and its failure makes the call fail."
  },
  {
   "property": "C114",
   "status": "partial",
   "theorems": [
    "Verif.CanBus.C114_outranked_is_lost",
    "Verif.CanBus.C114_disturbed_is_lost",
    "Verif.CanBus.C114_loss_is_unnoticed",
    "Verif.CanBus.C114_accounted",
    "Verif.CanBus.C114_with_retransmission",
    "Verif.CanBus.C114_kind_bus_partial"
   ],
   "note": "The claim is false: with AutoRetransmission disabled a frame that loses an arbitration or is disturbed is dropped for ever and unnoticed. Proved instead: the exact accounting, that the setting alone would repair it, and that nothing is lost while no lower identifier competes and nothing is disturbed."
  },
  {
   "property": "C115",
   "status": "partial",
   "theorems": [
    "Verif.CanBus.C115_silent_for_ever",
    "Verif.CanBus.C115_burst_ends_communication",
    "Verif.CanBus.C115_then_refused",
    "Verif.CanBus.C115_with_recovery",
    "Verif.CanBus.C115_alone_is_harmless",
    "Verif.CanBus.C115_few_errors_partial"
   ],
   "note": "The claim is false: AutoBusOff is disabled and nothing restarts the peripheral. Proved instead: an error budget below which communication goes on, that missing acknowledgements alone never stop it, that at most 67 calls still return OK afterwards, and that the setting would repair it."
  },
  {
   "property": "C116",
   "status": "partial",
   "theorems": [
    "Verif.CanBus.C116_last_command_overtaken",
    "Verif.CanBus.C116_spaced_calls_partial"
   ],
   "note": "The claim is false with TransmitFifoPriority disabled. Proved instead for calls that do not pile up behind higher mailboxes or identifiers."
  },
  {
   "property": "C117",
   "status": "proved",
   "theorems": [
    "Verif.CanRx.C117_whole_in_order",
    "Verif.CanRx.C117_lost_only_by_overrun",
    "Verif.CanRx.C117_newest_delivered",
    "Verif.CanRx.C117_drains",
    "Verif.CanRx.C117_in_time"
   ],
   "note": "Register-access granularity; a release takes effect at once. That the interrupt is served within 141 bit times is a hypothesis of C117_in_time only."
  },
  {
   "property": "C118",
   "status": "proved",
   "theorems": [
    "Verif.Clock.C118_intervals",
    "Verif.Clock.C118_nominal",
    "Verif.Clock.C118_no_drift",
    "Verif.Clock.C118_tolerance",
    "Verif.Clock.C118_uart",
    "Verif.Clock.C118_uart_shipped",
    "Verif.Clock.C118_readback"
   ],
   "note": "The meaning of the register fields is taken from the reference manual."
  },
  {
   "property": "C119",
   "status": "proved",
   "theorems": [
    "Verif.Inherit.C119_never_fails",
    "Verif.Inherit.C119_never_fails_orderly",
    "Verif.Inherit.C119_stale_limited",
    "Verif.Inherit.C119_own_priority_back",
    "Verif.Inherit.C119_holder_high",
    "Verif.Inherit.C119_holder_high_limited",
    "Verif.Inherit.C119_holder_high_forever",
    "Verif.Inherit.C119_not_too_high",
    "Verif.Inherit.C119_no_inversion",
    "Verif.Inherit.C119_exclusive",
    "Verif.Inherit.C119_waiting_sleeps",
    "Verif.Inherit.C119_free_is_offered",
    "Verif.Inherit.C119_two_limits_fail"
   ],
   "note": "On the pointer-level ready lists of C106, whose conditions on the mutex calls are proved here. One mutex at a time per task (C93). The firmware waits with a limit for the mutexes of log, CRC unit, SPI and I2C; only that of the log is shared by tasks. With two such mutexes an assertion of the kernel can fail (C119_two_limits_fail)."
  },
  {
   "property": "C12",
   "status": "partial",
   "theorems": [
    "Verif.FaultMgr.C12_codes_partial",
    "Verif.FaultMgr.C12_lv_codes_collide"
   ],
   "note": "false for the LV inverter codes (collision proved); proved for all other codes"
  },
  {
   "property": "C120",
   "status": "proved",
   "theorems": [
    "Verif.Context.C120_resumes",
    "Verif.Context.C120_resumes_self",
    "Verif.Context.C120_starts",
    "Verif.Context.C120_never_stuck",
    "Verif.Context.C120_first_starts",
    "Verif.Context.C120_can_switch",
    "Verif.Context.C120_untouched",
    "Verif.Context.C120_no_room"
   ],
   "note": "The handlers instruction by instruction, with the processor's entry into and return from exceptions, alignment of the frame and lazy saving of the floating point registers as in the ARMv7-M manual. vTaskSwitchContext is any function that keeps to the procedure call standard (which task it chooses is C108). The room on the stack is an assumption: nothing in the firmware checks for overflow. Interrupts inside the handlers and deletion of tasks are not shown."
  },
  {
   "property": "C121",
   "status": "proved",
   "theorems": [
    "Verif.Sbrk.C121_as_ideal",
    "Verif.Sbrk.C121_in_bounds",
    "Verif.Sbrk.C121_disjoint",
    "Verif.Sbrk.C121_first_512",
    "Verif.Sbrk.C121_below"
   ],
   "note": "Refinement to an ideal heap, for every history of requests. C121_below shows what the missing lower check lets through. Concurrent calls are not modelled."
  },
  {
   "property": "C122",
   "status": "proved",
   "theorems": [
    "Verif.Notify.C122_never_fails",
    "Verif.Notify.C122_none_lost",
    "Verif.Notify.C122_no_more_than_given",
    "Verif.Notify.C122_sleeps_only_on_none",
    "Verif.Notify.C122_give_wakes",
    "Verif.Notify.C122_sleeps_until_told",
    "Verif.Notify.C122_next_call_tells"
   ],
   "note": "Both critical sections of ulTaskNotifyTake are separate steps and anything may happen between them, including suspension of the scheduler and the notifications stream buffers send. 2^32 notifications without a call wrap the count, which C122_next_call_tells excludes. That a task able to run does run is C108."
  },
  {
   "property": "C123",
   "status": "proved",
   "theorems": [
    "Verif.Vehicle.C123_torque_ends_in_time"
   ],
   "note": "For the correctly wired state manager (C10). That the tasks keep up with the timer (each activation complete before the next interrupt, the copy of the data succeeding) is an assumption: execution times are not in the model. Bound for a fault that counts at once: three periods, 30 ms."
  },
  {
   "property": "C124",
   "status": "proved",
   "theorems": [
    "Verif.Board.C124_each_pin_as_asked",
    "Verif.Board.C124_each_line_as_asked",
    "Verif.Board.C124_one_call",
    "Verif.Board.C124_board_wired",
    "Verif.Board.C124_other_pins_untouched",
    "Verif.Board.C124_lines",
    "Verif.Board.C124_levels",
    "Verif.Board.C124_outputs_start_low"
   ],
   "note": "Registers at the level of bits, every round of HAL_GPIO_Init one step. The table of roles (Spec/Board.lean) comes from main.h and the comments of the msp file."
  },
  {
   "property": "C125",
   "status": "partial",
   "theorems": [
    "Verif.Board.C125_nothing_configured",
    "Verif.Board.C125_not_what_is_needed",
    "Verif.Board.C125_streams_partial"
   ],
   "note": "False as shipped: main calls MX_DMA_Init, which alone turns the DMA clocks on, after the peripherals' init functions have called HAL_DMA_Init; with the clock off the writes are lost, every call reports success and the streams keep their reset configuration. Proved for the order with MX_DMA_Init first. That registers of an unclocked peripheral ignore writes is taken from the reference manual."
  },
  {
   "property": "C126",
   "status": "proved",
   "theorems": [
    "Verif.Reset.C126_globals_initialised",
    "Verif.Reset.C126_every_image",
    "Verif.Reset.C126_image_kept"
   ],
   "note": "Instruction by instruction on words of memory; total correctness of both loops. SystemInit and __libc_init_array (no static constructors in C) come after and are left out."
  },
  {
   "property": "C127",
   "status": "proved",
   "theorems": [
    "Verif.Vectors.C127_numbers",
    "Verif.Vectors.C127_reaches",
    "Verif.Vectors.C127_heard",
    "Verif.Vectors.C127_let_through",
    "Verif.Vectors.C127_levels",
    "Verif.Vectors.C127_levels_of_C101"
   ],
   "note": "Which device raises which position of the table is taken from the reference manual (Spec/Vectors.lean). What the HAL handlers then do is in the models of the devices."
  },
  {
   "property": "C128",
   "status": "proved",
   "theorems": [
    "Verif.Exti.C128_no_edge_lost",
    "Verif.Exti.C128_no_callback_made_up",
    "Verif.Exti.C128_served"
   ],
   "note": "The three handlers have one level (C127), so that none interrupts another. What the callback does is C54 and C69."
  },
  {
   "property": "C129",
   "status": "partial",
   "theorems": [
    "Verif.UartRx.C129_keeps_listening_partial",
    "Verif.UartRx.C129_no_null_call_partial",
    "Verif.UartRx.C129_message_end_partial",
    "Verif.UartRx.C129_deaf_for_good",
    "Verif.UartRx.C129_each_place_matters"
   ],
   "note": "False as shipped. The stream's interrupt (level 6) may interrupt the port's handler (level 7, C127); if a full buffer is signalled between the test and the assignment in HAL_DMA_Abort_IT, while a line error is being handled, the port is deaf until the next reset: C129_deaf_for_good. The partial theorems hold for all runs in which the stream's final interrupt avoids five places of the port's handler (so always if both had one level); C129_each_place_matters shows that none of the five can be left out. Missing: those runs. Bus errors of the stream, FIFO errors and the expiry of the abort's time limit are not modelled; that the streams are configured at all is C125."
  },
  {
   "property": "C13",
   "status": "partial",
   "theorems": [
    "Verif.Throttle.C13_zero_outside",
    "Verif.Throttle.C13_dead_zone",
    "Verif.Throttle.C13_break_points",
    "Verif.Throttle.C13_forward_range",
    "Verif.Throttle.C13_forward_monotone",
    "Verif.Throttle.C13_reverse_monotone_partial",
    "Verif.Throttle.C13_reverse_range_partial",
    "Verif.Throttle.C13_reverse_not_monotone",
    "Verif.Throttle.C13_reverse_exceeds_maximum"
   ],
   "note": "proved in full for the forward map; for the reverse map monotonicity and the 75 Nm bound are false above 70 % pedal by one unit in the last place (negations proved), the partial theorems give what holds"
  },
  {
   "property": "C130",
   "status": "proved",
   "theorems": [
    "Verif.SimServer.C130_shown",
    "Verif.SimServer.C130_not_a_byte"
   ],
   "note": "The loop that makes up texts and waits is left out; the texts it makes consist of ASCII characters. Uses C84 for log frames alone."
  },
  {
   "property": "C131",
   "status": "proved",
   "theorems": [
    "Verif.Vehicle.C131_only_terminal",
    "Verif.Vehicle.C131_control_off"
   ],
   "note": "For the wiring with the missing pointer set; with the shipped wiring the first step of the state manager dereferences null (C10). Batches from the stream hold at most eight bytes, as the task asks for. The two kinds of text are those of C42, where both are shown to break the terminal."
  },
  {
   "property": "C132",
   "status": "partial",
   "theorems": [
    "Verif.Rtc.C132_clock_partial",
    "Verif.Rtc.C132_round_trip",
    "Verif.Rtc.C132_day_behind",
    "Verif.Rtc.C132_day_ahead",
    "Verif.Rtc.C132_month_constants"
   ],
   "note": "Proved for one task and when midnight does not pass inside the setting call. False otherwise, for every date: set to 23:59:59 with a second passing between the two writes, the clock is a whole day behind; and with two tasks reading at once a reading at midnight can be a whole day ahead, because the second task's read releases the registers held for the first. The calendar and the shadow registers are modelled from the reference manual; a second is whatever the hardware counts as one."
  },
  {
   "property": "C133",
   "status": "proved",
   "theorems": [
    "Verif.Car.C133_bus_to_bus"
   ],
   "note": "Times in any unit. Assumes what C96 and C123 assume: standard identifiers, the queue emptied within 12 ms of bus time, tasks that complete each activation before the next timer interrupt. Values are those of the scale factors of the code; C11 and C23 say how these differ from the documented ones. The fault is one that stays reported; the frame is taken when the queue is next found empty."
  },
  {
   "property": "C134",
   "status": "proved",
   "theorems": [
    "Verif.UartTx.C134_one_at_a_time",
    "Verif.UartTx.C134_every_transfer_ends",
    "Verif.UartTx.C134_ready_again",
    "Verif.UartTx.C134_none_refused",
    "Verif.UartTx.forever_fair"
   ],
   "note": "Each port has one sending task, as in the code. Bus errors of the stream are left out. A message can still wait in the buffer of pending bytes until the next one is sent: that is C28's. forever_fair shows that the assumption of the second part can be met."
  },
  {
   "property": "C135",
   "status": "proved",
   "theorems": [
    "Verif.Vehicle.C135_drives_when_asked"
   ],
   "note": "For the correctly wired state manager (the shipped wiring fails earlier, C10). That the runs it speaks of exist is C131's; the torque is C136's."
  },
  {
   "property": "C136",
   "status": "proved",
   "theorems": [
    "Verif.Throttle.C136_follows_the_curve",
    "Verif.Throttle.C136_frame_follows_the_curve"
   ],
   "note": "The curve is stated in exact rational arithmetic in Spec/Pedal."
  },
  {
   "property": "C137",
   "status": "proved",
   "theorems": [
    "Verif.Screen.C137_bus_to_screen"
   ],
   "note": "Composition of C96, C133's car model, C46 and C86. Values in the code's units (C23); the line for the cell of the maximum temperature is not among those claimed (C46). The byte condition is C84's, which shows that it is needed."
  },
  {
   "property": "C138",
   "status": "proved",
   "theorems": [
    "Verif.Vehicle.C138_current_pedal",
    "Verif.Vehicle.C138_easing_off",
    "Verif.Vehicle.C138_released"
   ],
   "note": "On the vehicle model of C104/C123 with times. The pedal value is the one published in the vehicle data; how it comes from the sensor is C68."
  },
  {
   "property": "C139",
   "status": "proved",
   "theorems": [
    "Verif.Vehicle.C139_command_every_period",
    "Verif.Vehicle.C139_no_silence"
   ],
   "note": "Command frames as handed to the CAN layer; what becomes of them there is C114 and C116. It includes the FAULT state, in which the inverter stays enabled with torque zero (C78)."
  },
  {
   "property": "C14",
   "status": "proved",
   "theorems": [
    "Verif.Throttle.C14_requested_torque",
    "Verif.Throttle.C14_always_representable"
   ],
   "note": "for every pedal float including NaN and infinities"
  },
  {
   "property": "C140",
   "status": "proved",
   "theorems": [
    "Verif.Vehicle.C140_outputs_as_asked"
   ],
   "note": "Terminal text outside the class of C43 is excluded (see C42, C43 for what it does), and so are lock attempts of the PC interface that fail, which drop the switching of that output (C55)."
  },
  {
   "property": "C141",
   "status": "proved",
   "theorems": [
    "Verif.InvCar.C141_ready_before_torque"
   ],
   "note": "Apply it to the history up to the frame in question to see that the report precedes it. That only the inverter's task writes the motor and inverter data is part of the model (no other file assigns them). Extended-identifier frames are excluded as in C24. For the correctly wired state manager (the shipped wiring fails earlier, C10). Command frames as handed to the CAN layer; overlapping calls there can corrupt them (C91)."
  },
  {
   "property": "C142",
   "status": "proved",
   "theorems": [
    "Verif.Loop.C142_asked_is_shown"
   ],
   "note": "Composition of C140 with the telemetry and the PC tool (C46, C86). The hypotheses about frames are those of C86: the end mark of a frame occurs nowhere else in it, and no data look like the beginning of a frame."
  },
  {
   "property": "C143",
   "status": "proved",
   "theorems": [
    "Verif.SenseCar.C143_two_presses_before_torque"
   ],
   "note": "Correctly wired state manager (C10). Frames as handed to the CAN layer. Apply it to the history up to the frame. The sensor task is the only one that writes the driver's inputs and the button."
  },
  {
   "property": "C144",
   "status": "proved",
   "theorems": [
    "Verif.SenseCar.C144_pedal_to_bus",
    "Verif.SenseCar.C144_released"
   ],
   "note": "Assumes, as C138, that the throttle task finishes each activation before the next; lifts C138 through the sensor task (C50, C51)."
  },
  {
   "property": "C145",
   "status": "proved",
   "theorems": [
    "Verif.TimIrq.C145_no_callback_made_up",
    "Verif.TimIrq.C145_no_update_lost",
    "Verif.TimIrq.C145_served",
    "Verif.TimIrq.C145_notified",
    "Verif.TimIrq.C145_first_at_once"
   ],
   "note": "Interrupt handler of the vendor library one register access at a time; the two kinds of capture/compare callbacks are not told apart."
  },
  {
   "property": "C146",
   "status": "proved",
   "theorems": [
    "Verif.AdcRegs.C146_one_call",
    "Verif.AdcRegs.C146_last_call_counts",
    "Verif.AdcRegs.C146_settings",
    "Verif.AdcRegs.C146_sequence",
    "Verif.AdcRegs.C146_pins",
    "Verif.AdcRegs.C146_started",
    "Verif.AdcRegs.C146_time",
    "Verif.AdcRegs.C146_driver_settings"
   ],
   "note": "What the converter does with its registers is the reference manual's description (Spec/AdcRegs). What becomes of the results in memory is C68, whose assumptions about the hardware settings are derived here."
  },
  {
   "property": "C147",
   "status": "proved",
   "theorems": [
    "Verif.Vehicle.C147_session",
    "Verif.Vehicle.C147_text"
   ],
   "note": "The bytes arrive without disturbance of the line (C66 for the reception, C32 for what a disturbance does). The CRC unit computes what C81 says."
  },
  {
   "property": "C148",
   "status": "partial",
   "theorems": [
    "Verif.SdcScreen.C148_rise_on_screen_partial",
    "Verif.SdcScreen.C148_fall_not_shown"
   ],
   "note": "False: a line that falls stays on the screen until some line rises (C69). Proved for histories whose last pin change was a rise. The conditions on the frames are those of C86."
  },
  {
   "property": "C149",
   "status": "partial",
   "theorems": [
    "Verif.Vehicle.C149_throttle_stopped_partial",
    "Verif.Vehicle.C149_manager_stopped",
    "Verif.Vehicle.C149_publishing_stopped"
   ],
   "note": "False: no watchdog is triggered (watchdogTrigger.c 22 has a TODO) and nothing checks the age of data. Proved for the throttle task: no torque without it. With the state manager stopped, torque follows the pedal whatever faults appear; with the publishing tasks stopped, the last pedal position is commanded for ever. For the correctly wired state manager (C10)."
  },
  {
   "property": "C15",
   "status": "partial",
   "theorems": [
    "Verif.Throttle.C15_late_request_possible",
    "Verif.Throttle.C15_at_most_one_late_request_partial",
    "Verif.Throttle.interleaved_refines_tick"
   ],
   "note": "false as stated: a request already past the enabled test is sent after the disable (negation proved); the partial theorem bounds it to one such request per preempted tick"
  },
  {
   "property": "C150",
   "status": "proved",
   "theorems": [
    "Verif.UartLine.C150_settings",
    "Verif.UartLine.C150_line",
    "Verif.UartLine.C150_links"
   ],
   "note": "Line and receiver as in the reference manual (Spec/UartLine): noise-free line, equally spaced samples; that the other side receives like this one (sixteen samples per bit) and sends eight bits without parity (pyserial's default) is assumed. Register bits the driver does not write have their reset values."
  },
  {
   "property": "C151",
   "status": "proved",
   "theorems": [
    "Verif.Halt.C151_silent"
   ],
   "note": "For stops after the interrupt controller has been set up (the end of main's initialisation). Which handlers stay inside the vendor library (timer 1, DMA of I2C2) is part of the model. That the torque last commanded ends is up to the inverter's own time limit, which is not part of the firmware."
  },
  {
   "property": "C152",
   "status": "proved",
   "theorems": [
    "Verif.CanLine.C152_settings",
    "Verif.CanLine.C152_line",
    "Verif.CanLine.C152_links"
   ],
   "note": "Registers at the level of bits; sampling, synchronisation and stuffing of the controllers as ISO 11898-1 and RM0410 describe them (Spec/CanLine.lean). Disturbances, wire delays and arbitration are left out of the line; that the other nodes send 1 Mbit/s is taken from the project file evfirmware-vcu.ioc."
  },
  {
   "property": "C153",
   "status": "proved",
   "theorems": [
    "Verif.SenseCar.C153_out_of_range",
    "Verif.SenseCar.C153_sensors_apart",
    "Verif.SenseCar.C153_both_pedals"
   ],
   "note": "Composition of the sensor task (C51) with C123. Timing enters as in C123: interrupts every P, control tasks finishing in time. Rounding allowances: an eight-millionth of the travel for sensors apart, a 16-millionth for both pedals. A sensor that cannot be read at all keeps its last value (C51), so such a sensor is outside this property."
  },
  {
   "property": "C154",
   "status": "proved",
   "theorems": [
    "Verif.Ready.C154_time_goes_up",
    "Verif.Ready.C154_done_in_time",
    "Verif.Ready.C154_nothing_owed"
   ],
   "note": "Over the kernel model of C106-C108. Execution times are inputs (budgets), as is that a pending task switch is made before a task goes on (PendSV). It is what the assumption of C123 and C153, that the control tasks finish each activation before the next, amounts to in terms of budgets."
  },
  {
   "property": "C155",
   "status": "proved",
   "theorems": [
    "Verif.ClockStart.C155_within_limits",
    "Verif.ClockStart.C155_at_the_end",
    "Verif.ClockStart.C155_pll_set_while_off"
   ],
   "note": "The limits are those of the STM32F767 datasheet and reference manual for 3.3 V (Spec/ClockLimits), and the behaviour of the ready flags is a hardware fact. Waits may give up at any moment (in the code after 2 ms to 5 s). That the oscillators are within the tolerance is an assumption; a crystal that stops later is not modelled."
  },
  {
   "property": "C156",
   "status": "partial",
   "theorems": [
    "Verif.Whole.C156_fault_has_cause_partial",
    "Verif.Whole.C156_before_report",
    "Verif.Whole.C156_cause_found"
   ],
   "note": "Missing, and false: that start-up values are never a cause. The vehicle data start at zero and the state of charge is checked without debounce, so with any minimum of at least 1 (shipped: 1000) one sample taken before the battery's first report of the charge has been processed is a drive fault until reset (C156_before_report, for every such history). Proved without exception once everything has been read and reported before the first sample. Comparisons of sensor values carry an allowance of 2^-23 of the travel for rounding."
  },
  {
   "property": "C157",
   "status": "proved",
   "theorems": [
    "Verif.Whole.C157_drives_from_outside"
   ],
   "note": "Sensor and receive tasks take the state lock without limit or report its result (part of the readings). Receive queues as in C24; frames have standard identifiers. That everything is read and reported before the first sample is a condition (see C156)."
  },
  {
   "property": "C158",
   "status": "proved",
   "theorems": [
    "Verif.Throttle.C158_outside",
    "Verif.Throttle.C158_line",
    "Verif.Throttle.C158_points",
    "Verif.Throttle.C158_step_is_nan"
   ],
   "note": "The shipped build uses -O0 (toolchain.cmake), which joins nothing; interpolateAs_none ties that case to the model used by all other properties. The table is passed as points; its entries and the pedal value are floats."
  },
  {
   "property": "C159",
   "status": "proved",
   "theorems": [
    "Verif.StartRace.C159_made_before_used",
    "Verif.StartRace.C159_never_waits",
    "Verif.StartRace.C159_lower_tasks_wait",
    "Verif.StartRace.C159_complete",
    "Verif.StartRace.C159_completes",
    "Verif.StartRace.C159_order_matters"
   ],
   "note": "What each task uses and locks is a list read from its code (uses, locks); the tasks may do these things in any order. The steps of start-up refine those of C58 (boot_startup). Of the kernel it is used that no task of lower priority runs while the init task is ready, unless it holds a lock (priority inheritance); cf. C106, C108. The vehicle-data pointer of the fault manager, which nothing sets, is C10 and not among the objects."
  },
  {
   "property": "C16",
   "status": "proved",
   "theorems": [
    "Verif.InvDrv.C16_enable_discharge_exclusive"
   ],
   "note": ""
  },
  {
   "property": "C160",
   "status": "partial",
   "theorems": [
    "Verif.RtcRate.C160_behind",
    "Verif.RtcRate.C160_counts",
    "Verif.RtcRate.C160_power_on",
    "Verif.RtcRate.C160_rate",
    "Verif.RtcRate.C160_only_watch_crystal",
    "Verif.RtcRate.C160_clock_partial",
    "Verif.RtcRate.C160_restart",
    "Verif.RtcRate.C160_prescalers_kept",
    "Verif.RtcRate.C160_source_change"
   ],
   "note": "The rate is false as shipped: HAL_RTC_MspInit connects the clock to the internal oscillator (nominally 32000 Hz) while MX_RTC_Init keeps the prescalers 128 x 256 for a watch crystal (32768 Hz), so that even at the nominal frequency the clock loses 33 min 45 s a day (C160_behind, for every moment and number of days up to a million); 32768 Hz is the only frequency that keeps time. A clock that has been set keeps its old prescalers, so correcting them in the program is not enough (C160_prescalers_kept). Proved: exact counting for every prescaler and number of cycles, and that a restart keeps the moment when the clock was connected to the same oscillator. The counters of the hardware are modelled from the reference manual; a reset stops the internal oscillator for as long as the restart takes, which is not counted here."
  },
  {
   "property": "C161",
   "status": "proved",
   "theorems": [
    "Verif.Ready.C161_ends",
    "Verif.Ready.C161_never_again",
    "Verif.Ready.C161_counted",
    "Verif.Ready.C161_cleared"
   ],
   "note": "Model/Ready with vTaskDelete(NULL) and the idle task's clean-up on the kernel lists at pointer level. That the start-up task does not have the scheduler suspended and holds no mutex when it ends is read from initialize.c (Log_Print gives its mutex back)."
  },
  {
   "property": "C162",
   "status": "proved",
   "theorems": [
    "Verif.Term.C162_answers"
   ],
   "note": "For the sessions of C43_lines_partial (at most one line end per packet, no leading or trailing blanks, at most eight words and 56 characters, help only for known commands). What other text does is C42, C43 and C131."
  },
  {
   "property": "C163",
   "status": "proved",
   "theorems": [
    "Verif.Memory.C163_fits",
    "Verif.Memory.C163_alone",
    "Verif.Memory.C163_streams",
    "Verif.Memory.C163_stacks"
   ],
   "note": "That declared variables do not overlap is the linker's doing and an assumption. Control blocks are values, not memory. How deep the tasks' own calls go in their stacks is not modelled; room for the context switch is a premise of C120."
  },
  {
   "property": "C164",
   "status": "proved",
   "theorems": [
    "Verif.BootLog.C164_report",
    "Verif.BootLog.C164_nothing_before",
    "Verif.BootLog.C164_sent",
    "Verif.BootLog.C164_screen",
    "Verif.BootLog.C164_happens"
   ],
   "note": "Up to the calls of the serial driver; the line itself is C166. The lines are written down in Spec/BootLog. The screen under the conditions of C85. Which tasks may run when is the kernel's rule as in C159."
  },
  {
   "property": "C165",
   "status": "partial",
   "theorems": [
    "Verif.BootLog.C165_false",
    "Verif.BootLog.C165_silent",
    "Verif.BootLog.C165_happens",
    "Verif.BootLog.C165_waiting_partial"
   ],
   "note": "False for every failed start-up: the init task loops for ever at the highest priority, the PC interface's task never runs and no log frame ever leaves. What holds: the stream has the report up to the failure and the two lines of the failure, which name the watchdog whatever has failed (TRY_INIT does not use its argument)."
  },
  {
   "property": "C166",
   "status": "partial",
   "theorems": [
    "Verif.Burst.C166_false",
    "Verif.Burst.C166_lost",
    "Verif.Burst.C166_held_off",
    "Verif.Burst.C166_report_cut",
    "Verif.Burst.C166_fits_partial"
   ],
   "note": "False: a port takes one message and 511 bytes behind it; a call that finds no room waits 100 ms with the interrupt disabled that would make room, then drops what does not fit and reports success. For every history in which more than that is handed over before the first transfer has ended, fewer bytes get onto the line, whatever follows; the report of a start-up is 53 frames, the thirteenth is cut. That the processor hands over thirteen frames within the time of one frame on the line is a premise (instruction times are not modelled). What holds: up to 511 bytes (eleven log frames) at once go out in full and in order, under the conditions of C28."
  },
  {
   "property": "C17",
   "status": "partial",
   "theorems": [
    "Verif.InvDrv.C17_torque_command_partial",
    "Verif.InvDrv.C17_nan_is_undefined"
   ],
   "note": "proved for every torque that is not NaN; a NaN torque makes the float-to-integer conversion undefined"
  },
  {
   "property": "C18",
   "status": "proved",
   "theorems": [
    "Verif.InvDrv.C18_enable_preceded_by_disable",
    "Verif.InvDrv.C18_stream_lockout",
    "Verif.InvDrv.C18_disable_frame_can_be_lost"
   ],
   "note": "as frames handed to the CAN driver; the witness shows the disable frame itself may be refused by the bus without the driver noticing"
  },
  {
   "property": "C19",
   "status": "partial",
   "theorems": [
    "Verif.InvDrv.C19_torque_discharge_partial",
    "Verif.InvDrv.C19_enable_always_reports_ok"
   ],
   "note": "false for the enable call, which reports OK whatever the bus did"
  },
  {
   "property": "C20",
   "status": "partial",
   "theorems": [
    "Verif.InvDrv.C20_last_frame_partial",
    "Verif.InvDrv.C20_mismatch_reachable"
   ],
   "note": "false as stated: disabling in discharge mode, and leaving discharge mode while enabled, send a frame that does not match the mode (both reachable); the partial theorem says these two cases are the only ones"
  },
  {
   "property": "C21",
   "status": "proved",
   "theorems": [
    "Verif.InvDrv.C21_frame_decodes",
    "Verif.InvDrv.C21_command_frame"
   ],
   "note": ""
  },
  {
   "property": "C22",
   "status": "proved",
   "theorems": [
    "Verif.Dbc.C22_frame",
    "Verif.Dbc.C22_stream"
   ],
   "note": "every field of the motor and inverter sections against a signal table"
  },
  {
   "property": "C23",
   "status": "partial",
   "theorems": [
    "Verif.Dbc.C23_layout_partial",
    "Verif.Dbc.C23_documented_scale_violated",
    "Verif.Dbc.C23_scale_partial",
    "Verif.Dbc.C23_stream"
   ],
   "note": "layout proved; the documented scale is violated for temperature, cell voltage and state of charge (negation proved), pack current and voltage are within 0.0005"
  },
  {
   "property": "C24",
   "status": "proved",
   "theorems": [
    "Verif.Can.C24_routing",
    "Verif.Can.C24_stream",
    "Verif.Can.C24_unconfigured_bus",
    "Verif.Can.C24_register",
    "Verif.Can.C24_shipped_masks",
    "Verif.Can.C24_registrations"
   ],
   "note": "for standard identifiers; extended frames are the subject of C26"
  },
  {
   "property": "C25",
   "status": "partial",
   "theorems": [
    "Verif.Can.C25_queued_frames_never_sent",
    "Verif.Can.C25_accepted_frame_lost",
    "Verif.Can.C25_no_progress",
    "Verif.Can.C25_overtaking_with_interrupt",
    "Verif.Can.C25_conservation",
    "Verif.Can.C25_direct_partial",
    "Verif.Can.C25_fifo_with_interrupt_partial"
   ],
   "note": "false: the transmit interrupt is never enabled, so a frame accepted into the software queue is never sent and later frames overtake it (negation proved); conservation holds always, exact order while nothing had to be queued"
  },
  {
   "property": "C26",
   "status": "partial",
   "theorems": [
    "Verif.Can.C26_stale_identifier",
    "Verif.Can.C26_extended_frame_forges_pack_state",
    "Verif.Can.C26_standard_frames_partial"
   ],
   "note": "false for extended frames (negation proved, with an end-to-end forged BMS reading); proved when only standard frames arrive"
  },
  {
   "property": "C27",
   "status": "partial",
   "theorems": [
    "Verif.Can.C27_safe_iff",
    "Verif.Can.C27_overflow",
    "Verif.Can.C27_eight_bytes_partial"
   ],
   "note": "false for lengths above 8 on the queued path and buffers below 8 bytes on the direct path; exact safety condition proved, met by every caller in the firmware"
  },
  {
   "property": "C28",
   "status": "partial",
   "theorems": [
    "Verif.Uart.C28_message_stuck",
    "Verif.Uart.C28_overtaking",
    "Verif.Uart.C28_noise_corrupts_running_message",
    "Verif.Uart.C28_conservation_partial",
    "Verif.Uart.C28_exact_stream_partial",
    "Verif.Uart.C28_loss_only_when_full"
   ],
   "note": "false: the driver masks the DMA interrupt but completion comes from the USART interrupt, so a message can get stuck and be overtaken, and line noise lets a new message overwrite the running one (three negations proved); exact stream proved for uninterrupted calls, conservation for every interleaving without hardware errors"
  },
  {
   "property": "C29",
   "status": "partial",
   "theorems": [
    "Verif.Uart.C29_overflow",
    "Verif.Uart.C29_empty_halts",
    "Verif.Uart.C29_safe_partial",
    "Verif.Uart.C29_completion_chunk_fits"
   ],
   "note": "false above 512 bytes (proved for every such message) and for an empty message while a transfer runs (failed assertion); safe for all histories with messages of 1 to 512 bytes"
  },
  {
   "property": "C30",
   "status": "partial",
   "theorems": [
    "Verif.MsgFrame.C30_safe_partial",
    "Verif.MsgFrame.C30_short_lengths_unsafe",
    "Verif.MsgFrame.C30_length_two",
    "Verif.MsgFrame.C30_safe_iff"
   ],
   "note": "exact: safe for lengths 2 and 6..1024; false for 0, 1, 3, 4 and 5, which the initialiser accepts (negation proved)"
  },
  {
   "property": "C31",
   "status": "proved",
   "theorems": [
    "Verif.MsgFrame.C31_sound"
   ],
   "note": "for lengths from 6 on and every behaviour of the CRC unit"
  },
  {
   "property": "C32",
   "status": "proved",
   "theorems": [
    "Verif.MsgFrame.C32_greedy_parse",
    "Verif.MsgFrame.C32_batches_accepted",
    "Verif.MsgFrame.C32_cut_independent",
    "Verif.MsgFrame.C32_parse_positions"
   ],
   "note": ""
  },
  {
   "property": "C33",
   "status": "proved",
   "theorems": [
    "Verif.MsgFrame.C33_round_trip"
   ],
   "note": ""
  },
  {
   "property": "C34",
   "status": "partial",
   "theorems": [
    "Verif.MsgFrame.C34_zero_field_accepted",
    "Verif.MsgFrame.C34_only_zero_field_partial"
   ],
   "note": "false: with a failing CRC unit frames with a zero CRC field are accepted (negation proved); nothing else is"
  },
  {
   "property": "C35",
   "status": "proved",
   "theorems": [
    "Verif.PcReq.C35_never_wedges",
    "Verif.PcReq.C35_no_request_lost"
   ],
   "note": "a request is handled in the very batch that completes it"
  },
  {
   "property": "C36",
   "status": "proved",
   "theorems": [
    "Verif.PcReq.C36_effects",
    "Verif.PcReq.C36_provenance"
   ],
   "note": ""
  },
  {
   "property": "C37",
   "status": "partial",
   "theorems": [
    "Verif.Nmea.C37_prefix_breaks",
    "Verif.Nmea.C37_two_sentences_break",
    "Verif.Nmea.C37_long_field_overflows",
    "Verif.Nmea.C37_full_buffer_breaks",
    "Verif.Nmea.C37_call_safe_partial",
    "Verif.Nmea.C37_until_first_fix_partial"
   ],
   "note": "false: four universally quantified ways to leave the buffers (any bytes before a sentence, two sentences in one read, a field of 128 or more characters, a full buffer); safe for one call with at most 1019 bytes and short fields, and for a whole stream up to the first decoded sentence"
  },
  {
   "property": "C38",
   "status": "partial",
   "theorems": [
    "Verif.Nmea.C38_stale_bytes_accepted",
    "Verif.Nmea.C38_sound_partial"
   ],
   "note": "false: left-over bytes behind the received ones can complete a sentence (negation proved); otherwise a decoded sentence is a checksummed run of received bytes"
  },
  {
   "property": "C39",
   "status": "partial",
   "theorems": [
    "Verif.Nmea.C39_cut_sentence_lost",
    "Verif.Nmea.C39_long_read_dropped",
    "Verif.Nmea.C39_one_per_read_partial",
    "Verif.Nmea.C37_prefix_breaks"
   ],
   "note": "false: every cut behind byte 13 loses the sentence, a read above 1024 bytes is dropped; sentences arriving one per read, or cut once within the first 13 bytes, are each decoded exactly once with their values"
  },
  {
   "property": "C40",
   "status": "proved",
   "theorems": [
    "Verif.Nmea.C40_decimal_digit",
    "Verif.Nmea.C40_hex_digit",
    "Verif.Nmea.C40_decimal_number",
    "Verif.Nmea.C40_time",
    "Verif.Nmea.C40_position",
    "Verif.Nmea.C40_accepted"
   ],
   "note": "for strings without NUL; numbers of 256 or more are reduced modulo 256, not rejected"
  },
  {
   "property": "C41",
   "status": "partial",
   "theorems": [
    "Verif.Nmea.C41_type_left_set",
    "Verif.Nmea.C41_type_null_partial"
   ],
   "note": "false: the type of a rejected sentence or of the previous one can remain (negation proved); the theorem lists the only cases"
  },
  {
   "property": "C42",
   "status": "partial",
   "theorems": [
    "Verif.Term.C42_nine_words_overflow",
    "Verif.Term.C42_help_unknown",
    "Verif.Term.C42_help_breaks",
    "Verif.Term.C42_safe_partial"
   ],
   "note": "False as stated: a line of nine words writes past the argument array and help for an unknown word dereferences a null command. Proved for every buffer and payload with at most eight separators that no write leaves the buffers and the only error is that null command."
  },
  {
   "property": "C43",
   "status": "partial",
   "theorems": [
    "Verif.Term.C43_two_lines_merge",
    "Verif.Term.C43_blank_breaks",
    "Verif.Term.C43_full_drops",
    "Verif.Term.C43_lines_partial"
   ],
   "note": "False as stated: two newlines in one packet, leading or trailing blanks, lines over 56 characters. Proved for every session of packets without these."
  },
  {
   "property": "C44",
   "status": "proved",
   "theorems": [
    "Verif.Term.C44_all_or_nothing",
    "Verif.Term.C44_line",
    "Verif.Term.C44_answers"
   ],
   "note": "For every argument vector, and from the words of every line; C44_answers also gives the texts printed in reply."
  },
  {
   "property": "C45",
   "status": "partial",
   "theorems": [
    "Verif.Term.C45_overflow",
    "Verif.Term.C45_frame_partial",
    "Verif.Term.C45_terminal_texts_fit"
   ],
   "note": "False for texts of 244 characters or more, which always overrun the buffer. Proved for shorter texts, and every text the terminal prints itself is shorter."
  },
  {
   "property": "C46",
   "status": "partial",
   "theorems": [
    "Verif.Telemetry.C46_fields_partial",
    "Verif.Telemetry.C46_max_temp_id_wrong"
   ],
   "note": "False for one field: the maximum-cell-temperature id carries the minimum's cell id. Proved for every other field and every state, down to the bytes decoded by the receiver specification."
  },
  {
   "property": "C47",
   "status": "proved",
   "theorems": [
    "Verif.LogStream.C47_log_stream",
    "Verif.LogStream.C47_returns"
   ],
   "note": "For every sequence of prints and flushes that the VCU survives (an empty message halts it, C99)."
  },
  {
   "property": "C48",
   "status": "partial",
   "theorems": [
    "Verif.Adc.C48_last_sweep_partial",
    "Verif.Adc.C48_half_word_wrong"
   ],
   "note": "Proved for 32-bit DMA transfers with timely half/full callbacks. False for the shipped half-word transfers, where the driver reads two samples packed in one word."
  },
  {
   "property": "C49",
   "status": "partial",
   "theorems": [
    "Verif.Adc.C49_count_accepted",
    "Verif.Adc.C49_refused_partial"
   ],
   "note": "False: the channel number equal to the configured count is accepted, and with 16 channels read out of bounds. Every larger number is refused."
  },
  {
   "property": "C50",
   "status": "proved",
   "theorems": [
    "Verif.Adc.C50_scaling",
    "Verif.Adc.C50_equal_points"
   ],
   "note": "Under binary32 rounding, for every reading and calibration pair; the second theorem shows what happens at equal points."
  },
  {
   "property": "C51",
   "status": "proved",
   "theorems": [
    "Verif.DiscreteSense.C51_publication"
   ],
   "note": "For every ADC outcome pattern and prior state."
  },
  {
   "property": "C52",
   "status": "partial",
   "theorems": [
    "Verif.Wheelspeed.C52_batch_partial",
    "Verif.Wheelspeed.C52_boundary_edge_lost",
    "Verif.Wheelspeed.C52_zero_teeth",
    "Verif.Wheelspeed.C52_samples_fifo",
    "Verif.Wheelspeed.C52_sample_levels",
    "Verif.Wheelspeed.C52_sample_kept",
    "Verif.Wheelspeed.C52_all_accepted"
   ],
   "note": "Count and RPM proved for every batch. False over batches: an edge between the last sample of one batch and the first of the next is lost; zero teeth divides by zero."
  },
  {
   "property": "C53",
   "status": "partial",
   "theorems": [
    "Verif.Periodic.C53_heartbeat",
    "Verif.Periodic.C53_wheel_schedule",
    "Verif.Periodic.C53_wheel_glitch",
    "Verif.Periodic.C53_wheel_partial",
    "Verif.Periodic.C53_broadcast_schedule",
    "Verif.Periodic.C53_broadcast_glitch",
    "Verif.Periodic.C53_broadcast_partial"
   ],
   "note": "The heartbeat is exact for ever. The two other counters wrap at their width, which is no multiple of 100; exact schedules, the irregular period at the wrap, and regularity up to it are proved."
  },
  {
   "property": "C54",
   "status": "proved",
   "theorems": [
    "Verif.Sdc.C54_published",
    "Verif.Sdc.C54_settles",
    "Verif.Sdc.C54_locked"
   ],
   "note": "For every interleaving of edges, interrupts and task steps, interrupt between any two pin reads included. The task notification count is assumed not to wrap between two takes."
  },
  {
   "property": "C55",
   "status": "proved",
   "theorems": [
    "Verif.Pdm.C55_mirror",
    "Verif.Pdm.C55_refused_no_effect",
    "Verif.Pdm.C55_shipped"
   ],
   "note": "Over every command sequence and lock outcome."
  },
  {
   "property": "C56",
   "status": "proved",
   "theorems": [
    "Verif.TaskTimer.C56_notifications",
    "Verif.TaskTimer.C56_refusal_no_effect",
    "Verif.TaskTimer.C56_ignored_before_init",
    "Verif.TaskTimer.C56_null_timer"
   ],
   "note": "Over every sequence of registrations and timer interrupts. C56_null_timer: an Init with a null timer is accepted and the next interrupt dereferences it; the shipped start-up passes the address of a static handle."
  },
  {
   "property": "C57",
   "status": "partial",
   "theorems": [
    "Verif.Depends.C57_ids_partial",
    "Verif.Depends.C57_wrap"
   ],
   "note": "Holds for the first 2^32-1 registrations; after the counter wraps ids repeat and the check is wrong (C57_wrap)."
  },
  {
   "property": "C58",
   "status": "proved",
   "theorems": [
    "Verif.Startup.C58_completes",
    "Verif.Startup.C58_fails_safe"
   ],
   "note": "For every outcome of the twelve checked hardware calls."
  },
  {
   "property": "C59",
   "status": "partial",
   "theorems": [
    "Verif.I2c.C59_i2c_partial",
    "Verif.Spi.C59_spi_partial",
    "Verif.Spi.C59_spi_lost",
    "Verif.Spi.C59_blocking_released"
   ],
   "note": "Holds for I2C on every path that returns and for the blocking SPI call. False for asynchronous SPI: a transfer that fails to start keeps the bus lock for ever. Calls that end in undefined behaviour or a failed assertion are not returns."
  },
  {
   "property": "C60",
   "status": "partial",
   "theorems": [
    "Verif.I2c.C60_config_fresh",
    "Verif.I2c.C60_first_read_unfinished",
    "Verif.I2c.C60_completion_halts",
    "Verif.I2c.C60_second_read",
    "Verif.I2c.C60_ok_only_once",
    "Verif.I2c.C60_early_partial",
    "Verif.I2c.C60_only_second_interface",
    "Verif.I2c.C60_own_bus"
   ],
   "note": "False: the transfer semaphore is a mutex that starts available, so the first read returns without waiting; its completion interrupt then fails a kernel assertion. Every later read times out or halts. C60_early_partial: a completion that beats the take yields the received bytes."
  },
  {
   "property": "C61",
   "status": "partial",
   "theorems": [
    "Verif.LogStream.C61_log_print_partial"
   ],
   "note": "For every message and fill level whenever the call returns; the empty message does not return (C99)."
  },
  {
   "property": "C62",
   "status": "partial",
   "theorems": [
    "Verif.Throttle.C62_forward_torque_in_reverse",
    "Verif.Throttle.C62_consistent_without_interference_partial"
   ],
   "note": "false: forward 500 Nm can be sent with direction reverse when the direction is changed inside a tick (witness; the shipped state machine only ever sets forward); proved for ticks without such a change"
  },
  {
   "property": "C63",
   "status": "partial",
   "theorems": [
    "Verif.FaultMgr.C63_can_silence_not_detected",
    "Verif.FaultMgr.C63_healthy_then_silent_forever"
   ],
   "note": "false: CAN timeouts are not implemented (negation proved for every duration)"
  },
  {
   "property": "C64",
   "status": "partial",
   "theorems": [
    "Verif.FaultMgr.C64_inverter_faults_never_raised",
    "Verif.FaultMgr.C09_each_fault_bit"
   ],
   "note": "false for every inverter/motor fault, brake disagreement and the low-voltage codes (unreachability proved); the nine implemented faults are characterised exactly"
  },
  {
   "property": "C65",
   "status": "partial",
   "theorems": [
    "Verif.Can.C65_remote_frame_decoded"
   ],
   "note": "false: the driver ignores the remote flag (negation proved)"
  },
  {
   "property": "C66",
   "status": "partial",
   "theorems": [
    "Verif.Uart.C66_false",
    "Verif.Uart.C66_half_transfer_duplicates",
    "Verif.Uart.C66_short_bursts_partial",
    "Verif.Uart.C66_errors_partial"
   ],
   "note": "false: every burst of 256 to 511 bytes has its first 256 bytes delivered twice (half-transfer event); exact for bursts below 256 bytes"
  },
  {
   "property": "C67",
   "status": "partial",
   "theorems": [
    "Verif.PcReq.C67_ports_interfere",
    "Verif.PcReq.C67_contiguous_partial",
    "Verif.StreamBuf.C98_overlap_loses"
   ],
   "note": "false: both ports feed one stream, a byte on one port destroys a request arriving on the other (negation proved); moreover the receive interrupts have priorities 6 and 7 (main.c 860, 878; stm32f7xx_hal_msp.c 843, 917), so one port's send to the stream can interrupt the other's and bytes are lost in every such case; requests contiguous in the shared stream are handled"
  },
  {
   "property": "C68",
   "status": "partial",
   "theorems": [
    "Verif.Adc.C68_pedals_read_zero",
    "Verif.Adc.C68_one_shot_frozen",
    "Verif.DiscreteSense.C68_published_zero"
   ],
   "note": "False: with half-word DMA into a word buffer every pedal and brake channel reads 0 for ever, and without continuous DMA requests the buffer freezes after one pass; carried through to the published values."
  },
  {
   "property": "C69",
   "status": "partial",
   "theorems": [
    "Verif.Sdc.C69_fall_unnoticed",
    "Verif.Sdc.C69_startup_unnoticed",
    "Verif.Sdc.C69_after_rise_partial"
   ],
   "note": "False: only rising edges interrupt and the pins are not sampled at start-up. Right after a rise of any line all inputs are published correctly."
  },
  {
   "property": "C70",
   "status": "partial",
   "theorems": [
    "Verif.Startup.C70_others_partial",
    "Verif.Startup.C70_sdc_null",
    "Verif.Startup.C70_sdc_null_reached",
    "Verif.Startup.C70_sdc_no_task"
   ],
   "note": "Holds for timer, CAN and UART interrupts at every point. False for the shutdown-circuit lines: null pins before configuration and for ever after a failed start-up, missing task just after it."
  },
  {
   "property": "C71",
   "status": "partial",
   "theorems": [
    "Verif.Startup.C71_timer_never_runs",
    "Verif.Startup.C71_never_published"
   ],
   "note": "False: the sampling timer is never started, so the published wheel speeds never change. Nothing of the claim holds with the shipped start-up; the counting itself is C52."
  },
  {
   "property": "C72",
   "status": "partial",
   "theorems": [
    "Verif.Startup.C72_not_signalled"
   ],
   "note": "False for every failed start-up."
  },
  {
   "property": "C73",
   "status": "partial",
   "theorems": [
    "Verif.SharedOutputs.C73_inverted",
    "Verif.SharedOutputs.C73_level",
    "Verif.SharedOutputs.C73_shown_partial"
   ],
   "note": "False: the lamp pin is also the heartbeat pin and is inverted every hundredth activation. C73_level gives the exact level."
  },
  {
   "property": "C74",
   "status": "partial",
   "theorems": [
    "Verif.SharedOutputs.C74_reasserted_partial",
    "Verif.SharedOutputs.C74_released",
    "Verif.Vehicle.C74_last_write_partial"
   ],
   "note": "Every tick in the fault state asserts the line; an operator release takes effect until the next tick."
  },
  {
   "property": "C75",
   "status": "partial",
   "theorems": [
    "Verif.SharedOutputs.C75_button_releases",
    "Verif.SharedOutputs.C75_only_button_partial"
   ],
   "note": "False: the start button in LV ready releases the line. No other tick does."
  },
  {
   "property": "C76",
   "status": "proved",
   "theorems": [
    "Verif.Drive.C76_frames",
    "Verif.Drive.C76_no_torque_before_drive"
   ],
   "note": "Composition of state machine, throttle task and inverter driver; mutexes of the throttle setters are taken to be granted (they block without limit). Frames are what the driver hands to CAN_SendMessage; what overlapping senders make of them is C90 and C91."
  },
  {
   "property": "C77",
   "status": "partial",
   "theorems": [
    "Verif.Drive.C77_late_torque",
    "Verif.Drive.C77_at_most_one_partial"
   ],
   "note": "False: one frame the throttle task was preparing can still carry torque. It is at most one and it is the first."
  },
  {
   "property": "C78",
   "status": "partial",
   "theorems": [
    "Verif.Drive.C78_never_disabled",
    "Verif.Drive.C78_fault_frame",
    "Verif.Drive.C78_not_disabled",
    "Verif.Drive.C78_not_before_hv_partial"
   ],
   "note": "False for every run that has enabled the inverter: nothing ever disables it. No frame leaves before HV_CHARGING."
  },
  {
   "property": "C79",
   "status": "partial",
   "theorems": [
    "Verif.Gps.C79_stack_published",
    "Verif.Gps.C79_stack_visible",
    "Verif.Gps.C79_strings_partial"
   ],
   "note": "False for every fix whose latitude is shorter than the array: the bytes behind the terminator are leftover stack. Everything up to the terminators, and all control flow, is determined by the received bytes."
  },
  {
   "property": "C80",
   "status": "proved",
   "theorems": [
    "Verif.Gps.C80_activation",
    "Verif.Gps.C80_always_room",
    "Verif.Gps.C80_log_line",
    "Verif.Gps.C80_log_line_limit",
    "Verif.Gps.C80_large_batch"
   ],
   "note": "Executions that overrun a decoder buffer (C37) end in undefined behaviour and are the first alternative of the theorems."
  },
  {
   "property": "C81",
   "status": "proved",
   "theorems": [
    "Verif.Crc.C81_same_checksum",
    "Verif.Crc.C81_when_locked"
   ],
   "note": "The unit is modelled from its documented function (write combines with the top of the register, then shifts)."
  },
  {
   "property": "C82",
   "status": "partial",
   "theorems": [
    "Verif.Crc.C82_undetected",
    "Verif.Crc.C82_not",
    "Verif.Crc.C82_burst_partial",
    "Verif.Crc.C82_field_partial",
    "Verif.Crc.C82_bits_partial"
   ],
   "note": "False: the checksum is not at the end of the frame, and every valid frame with a payload becomes another valid frame by one 29-bit burst across its last data byte and its checksum. Bursts within the data, any change within the checksum, and any one to three bits (frames to 43 bytes; two bits to 1024 bytes) are detected."
  },
  {
   "property": "C83",
   "status": "proved",
   "theorems": [
    "Verif.PcTool.C83_parse",
    "Verif.PcTool.C83_chunks"
   ],
   "note": "For message lengths from 11 on; the tool uses 43 and 18."
  },
  {
   "property": "C84",
   "status": "partial",
   "theorems": [
    "Verif.PcTool.C84_not",
    "Verif.PcTool.C84_shows_partial",
    "Verif.PcTool.C84_logs_alone_partial"
   ],
   "note": "False: a state frame can be swallowed. Holds when CR LF occurs in frames only at their ends (and two coincidences of four bytes are excluded); log frames alone are always shown."
  },
  {
   "property": "C85",
   "status": "partial",
   "theorems": [
    "Verif.PcTool.C85_log_text_partial",
    "Verif.PcTool.C84_logs_alone_partial"
   ],
   "note": "Under the condition of C84 on CR LF and the state frames' checksums when state frames are mixed in."
  },
  {
   "property": "C86",
   "status": "partial",
   "theorems": [
    "Verif.PcTool.C86_state_partial"
   ],
   "note": "Under the conditions of C84; field 6 shows another value (C46_max_temp_id_wrong)."
  },
  {
   "property": "C87",
   "status": "proved",
   "theorems": [
    "Verif.PcTool.C87_encode"
   ],
   "note": ""
  },
  {
   "property": "C88",
   "status": "partial",
   "theorems": [
    "Verif.PcTool.C88_not",
    "Verif.PcTool.C88_missed"
   ],
   "note": "False for every frame: a message that fills the buffer is never found."
  },
  {
   "property": "C89",
   "status": "partial",
   "theorems": [
    "Verif.Startup.C89_collapse",
    "Verif.Startup.C89_not",
    "Verif.Startup.C89_partial"
   ],
   "note": "False for configured priorities of 6 and more: the kernel clamps them to 6, so five tasks and start-up are time-sliced. Holds whenever the lower priority is below 6."
  },
  {
   "property": "C90",
   "status": "partial",
   "theorems": [
    "Verif.CanHal.C90_mix",
    "Verif.CanHal.C90_not",
    "Verif.CanHal.C90_exclusive_partial"
   ],
   "note": "False: the driver does not exclude concurrent senders; for any two frames each of six points of interruption gives its mixture. Holds, with multiplicity, when calls do not overlap."
  },
  {
   "property": "C91",
   "status": "partial",
   "theorems": [
    "Verif.CanHal.C91_torque_from_counter",
    "Verif.CanHal.C91_exclusive_partial"
   ],
   "note": "False: for every debug counter value a task switch at the wrong place puts an enabling command frame on the bus whose torque is the low half of the counter. Holds when calls do not overlap."
  },
  {
   "property": "C92",
   "status": "proved",
   "theorems": [
    "Verif.LockProps.C92_consistent"
   ],
   "note": "Members written without the mutex (the shutdown circuit flags, C54; the throttle flags, C15) are not part of the claim."
  },
  {
   "property": "C93",
   "status": "proved",
   "theorems": [
    "Verif.LockProps.C93_no_deadlock",
    "Verif.LockProps.C93_finish",
    "Verif.LockProps.C93_holder"
   ],
   "note": "The mutexes of the vehicle data, the inverter command, the throttle controller, the CRC unit and the log. The I2C and SPI locks are C59 and C60."
  },
  {
   "property": "C94",
   "status": "partial",
   "theorems": [
    "Verif.Ticks.C94_lost",
    "Verif.Ticks.C94_not",
    "Verif.Ticks.C94_at_most_one_per_period",
    "Verif.Ticks.C94_exact_partial"
   ],
   "note": "False: periods that elapse before the task runs count as one. At most one execution per period, exactly one when the task keeps up."
  },
  {
   "property": "C95",
   "status": "proved",
   "theorems": [
    "Verif.Noninterf.C95_only_these_matter",
    "Verif.Noninterf.C95_inverter_reports_ignored"
   ],
   "note": "As shipped the first activation dereferences a null pointer (C10); the theorem is for every state of the objects."
  },
  {
   "property": "C96",
   "status": "proved",
   "theorems": [
    "Verif.CanFresh.C96_nothing_lost",
    "Verif.CanFresh.C96_inverter_fresh",
    "Verif.CanFresh.C96_bms_fresh",
    "Verif.CanFresh.C96_overflow_keeps_oldest"
   ],
   "note": "Frames the hardware delivers (its three-place FIFO is before the model). BMS values with the code's scale factors (C23). C96_overflow_keeps_oldest shows the timing condition is needed."
  },
  {
   "property": "C97",
   "status": "proved",
   "theorems": [
    "Verif.Ticks.C97_wait_never_early",
    "Verif.Ticks.C97_timeout_never_early",
    "Verif.Ticks.C94_at_most_one_per_period"
   ],
   "note": "Reported fault: the fault manager's verdict at that activation."
  },
  {
   "property": "C98",
   "status": "proved",
   "theorems": [
    "Verif.StreamBuf.C98_fifo",
    "Verif.StreamBuf.C98_safe",
    "Verif.StreamBuf.C98_send",
    "Verif.StreamBuf.C98_recv",
    "Verif.StreamBuf.C98_overlap_loses"
   ],
   "note": "For every size, content and interleaving at single-byte granularity; C98_overlap_loses shows the condition on senders is necessary. Waiting and notifications are not part of the model."
  },
  {
   "property": "C99",
   "status": "partial",
   "theorems": [
    "Verif.LogStream.C99_returns_iff",
    "Verif.LogStream.C99_empty_message_halts",
    "Verif.LogStream.C99_partial"
   ],
   "note": "False: an empty string with serial logging on and room in the stream fails an assertion inside the stream buffer and halts the VCU. Exactly these calls do not return."
  }
 ]
}