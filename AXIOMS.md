# Axioms per theorem

Output of `#print axioms` for every theorem named in `MANIFEST.json`.

| property | theorem | axioms |
| --- | --- | --- |
| C01 | `Verif.Vsm.C01_fault_absorbing` | propext |
| C02 | `Verif.Vsm.C02_fault_is_safe` | propext, Quot.sound |
| C02 | `Verif.Vsm.C02_any_fault_from_lvReady` | propext |
| C02 | `Verif.StateMgr.C02_end_to_end` | propext, Classical.choice, Quot.sound |
| C03 | `Verif.Vsm.C03_torque_only_in_forward` | propext, Quot.sound |
| C03 | `Verif.Vsm.C03_ecu_error_line` | propext, Quot.sound |
| C04 | `Verif.Vsm.C04_ordered_startup` | propext, Classical.choice, Quot.sound |
| C04 | `Verif.StateMgr.C04_end_to_end` | propext, Classical.choice, Quot.sound |
| C05 | `Verif.Vsm.C05_edge_triggered` | propext, Quot.sound |
| C05 | `Verif.Vsm.C05_held_button_acts_once` | propext, Quot.sound |
| C06 | `Verif.Vsm.C06_hv_dwell` | propext, Quot.sound |
| C06 | `Verif.Vsm.C06_hv_charge` | propext, Quot.sound |
| C06 | `Verif.Vsm.C06_wrap_never_leaves_hvActive` | propext, Quot.sound |
| C07 | `Verif.FaultMgr.C07_debounce_exact` | propext, Classical.choice, Quot.sound |
| C07 | `Verif.FaultMgr.C07_limit_max_never_fails` | propext, Quot.sound |
| C08 | `Verif.FaultMgr.C08_faults_latch` | propext, Classical.choice, Quot.sound |
| C08 | `Verif.FaultMgr.C08_fault_status_latches` | propext, Classical.choice, Quot.sound |
| C09 | `Verif.FaultMgr.C09_each_fault_bit` | propext, Classical.choice, Quot.sound |
| C09 | `Verif.FaultMgr.C09_status_exact` | propext, Classical.choice, Quot.sound |
| C10 | `Verif.StateMgr.C10_shipped_wiring_dereferences_null` | propext, Classical.choice, Quot.sound |
| C10 | `Verif.StateMgr.C10_wired_runs_partial` | propext, Classical.choice, Quot.sound |
| C100 | `Verif.Queue.C100_fifo` | propext, Classical.choice, Quot.sound |
| C100 | `Verif.Queue.C100_empty` | propext, Classical.choice, Quot.sound |
| C101 | `Verif.Critical.C101_exclusive` | propext, Classical.choice, Quot.sound |
| C101 | `Verif.Critical.C101_responsive` | propext, Classical.choice, Quot.sound |
| C102 | `Verif.Delay.C102_exact` | propext, Classical.choice, Quot.sound |
| C102 | `Verif.Delay.C102_wait` | propext, Classical.choice, Quot.sound |
| C103 | `Verif.Vehicle.C103_torque_unaffected` | propext, Classical.choice, Quot.sound |
| C103 | `Verif.Vehicle.C103_pc_reach` | propext, Classical.choice, Quot.sound |
| C104 | `Verif.Vehicle.C104_fault_ends_torque` | propext, Classical.choice, Quot.sound |
| C105 | `Verif.KList.C105_sequences` | propext, Classical.choice, Quot.sound |
| C105 | `Verif.KList.C105_head` | propext, Classical.choice, Quot.sound |
| C105 | `Verif.KList.C105_sorted` | propext, Classical.choice, Quot.sound |
| C105 | `Verif.KList.others_untouched` | propext |
| C106 | `Verif.Ready.C106_never_fails` | propext, Classical.choice, Quot.sound |
| C106 | `Verif.Ready.C106_switch_right` | propext, Classical.choice, Quot.sound |
| C106 | `Verif.Ready.C106_right_list` | propext, Classical.choice, Quot.sound |
| C107 | `Verif.Ready.C107_fair` | propext, Classical.choice, Quot.sound |
| C107 | `Verif.Ready.C107_tick_slices` | propext, Classical.choice, Quot.sound |
| C108 | `Verif.Ready.C108_right_unless_pending_partial` | propext, Classical.choice, Quot.sound |
| C108 | `Verif.Ready.C108_right_after_tick_partial` | propext, Classical.choice, Quot.sound |
| C108 | `Verif.Ready.C108_right_at_once_partial` | propext, Classical.choice, Quot.sound |
| C108 | `Verif.Ready.C108_stale_give` | propext, Classical.choice, Quot.sound |
| C108 | `Verif.Ready.C108_ticks_do_not_help` | propext, Classical.choice, Quot.sound |
| C109 | `Verif.SbWait.C109_never_fails` | propext, Classical.choice, Quot.sound |
| C109 | `Verif.SbWait.C109_reader_not_forgotten` | propext, Classical.choice, Quot.sound |
| C109 | `Verif.SbWait.C109_reader_told` | propext, Classical.choice, Quot.sound |
| C109 | `Verif.SbWait.C109_writer_goes_on` | propext, Quot.sound |
| C109 | `Verif.SbWait.C109_writer_not_forgotten` | propext, Classical.choice, Quot.sound |
| C109 | `Verif.SbWait.C109_no_notification_lost` | propext, Classical.choice, Quot.sound |
| C109 | `Verif.SbWait.C109_wait_ends_with_data` | propext, Classical.choice, Quot.sound |
| C109 | `Verif.SbWait.C109_send_all_or_late` | propext, Classical.choice, Quot.sound |
| C11 | `Verif.FaultMgr.C11_limits_violated` | propext, Classical.choice, Quot.sound |
| C11 | `Verif.FaultMgr.C11_limits_partial` | propext, Classical.choice, Quot.sound |
| C11 | `Verif.FaultMgr.C11_current_voltage_faults_unreachable` | propext, Classical.choice, Quot.sound |
| C11 | `Verif.FaultMgr.C11_fault_before_first_pack_frame` | propext, Classical.choice, Quot.sound |
| C110 | `Verif.QueueWait.C110_no_lost_wakeup` | propext, Classical.choice, Quot.sound |
| C110 | `Verif.QueueWait.C110_asleep_only_if_none` | propext, Classical.choice, Quot.sound |
| C110 | `Verif.QueueWait.C110_free_mutex_has_taker` | propext, Classical.choice, Quot.sound |
| C110 | `Verif.QueueWait.C110_woken_looks` | propext, Classical.choice, Quot.sound |
| C110 | `Verif.QueueWait.C110_highest_first` | propext, Classical.choice, Quot.sound |
| C110 | `Verif.QueueWait.C110_behind_equals` | propext, Classical.choice, Quot.sound |
| C110 | `Verif.QueueWait.C110_first_is_woken` | propext, Classical.choice, Quot.sound |
| C110 | `Verif.QueueWait.C110_fails_only_late` | propext, Classical.choice, Quot.sound |
| C110 | `Verif.QueueWait.C110_results` | propext, Classical.choice, Quot.sound |
| C111 | `Verif.Ready.C111_woken_can_run` | propext, Classical.choice, Quot.sound |
| C111 | `Verif.Ready.C111_only_own_call` | propext, Classical.choice, Quot.sound |
| C111 | `Verif.Ready.C111_sleeps_until_named` | propext, Classical.choice, Quot.sound |
| C111 | `Verif.Ready.C111_woken_is_served` | propext, Classical.choice, Quot.sound |
| C112 | `Verif.TimeOut.C112_never_fails` | propext, Classical.choice, Quot.sound |
| C112 | `Verif.TimeOut.C112_gives_up_exactly` | propext, Classical.choice, Quot.sound |
| C112 | `Verif.TimeOut.C112_not_before` | propext, Classical.choice, Quot.sound |
| C112 | `Verif.TimeOut.C112_awake_in_time` | propext, Classical.choice, Quot.sound |
| C112 | `Verif.TimeOut.C112_sleeps_through` | propext, Classical.choice, Quot.sound |
| C112 | `Verif.TimeOut.C112_no_limit` | propext |
| C113 | `Verif.CanFilter.C113_every_bus_heard` | propext, Quot.sound |
| C113 | `Verif.CanFilter.C113_order_matters` | propext, Quot.sound |
| C114 | `Verif.CanBus.C114_outranked_is_lost` | propext, Quot.sound |
| C114 | `Verif.CanBus.C114_disturbed_is_lost` | propext, Quot.sound |
| C114 | `Verif.CanBus.C114_loss_is_unnoticed` | propext, Quot.sound |
| C114 | `Verif.CanBus.C114_accounted` | propext, Quot.sound |
| C114 | `Verif.CanBus.C114_with_retransmission` | propext, Quot.sound |
| C114 | `Verif.CanBus.C114_kind_bus_partial` | propext, Quot.sound |
| C115 | `Verif.CanBus.C115_silent_for_ever` | propext, Quot.sound |
| C115 | `Verif.CanBus.C115_burst_ends_communication` | propext, Quot.sound |
| C115 | `Verif.CanBus.C115_then_refused` | propext, Quot.sound |
| C115 | `Verif.CanBus.C115_with_recovery` | propext |
| C115 | `Verif.CanBus.C115_alone_is_harmless` | propext, Quot.sound |
| C115 | `Verif.CanBus.C115_few_errors_partial` | propext, Quot.sound |
| C116 | `Verif.CanBus.C116_last_command_overtaken` | propext |
| C116 | `Verif.CanBus.C116_spaced_calls_partial` | propext, Quot.sound |
| C117 | `Verif.CanRx.C117_whole_in_order` | propext, Classical.choice, Quot.sound |
| C117 | `Verif.CanRx.C117_lost_only_by_overrun` | propext, Classical.choice, Quot.sound |
| C117 | `Verif.CanRx.C117_newest_delivered` | propext, Classical.choice, Quot.sound |
| C117 | `Verif.CanRx.C117_drains` | propext, Classical.choice, Quot.sound |
| C117 | `Verif.CanRx.C117_in_time` | propext, Classical.choice, Quot.sound |
| C118 | `Verif.Clock.C118_intervals` | propext, Classical.choice, Quot.sound |
| C118 | `Verif.Clock.C118_nominal` | propext, Classical.choice, Quot.sound |
| C118 | `Verif.Clock.C118_no_drift` | propext, Classical.choice, Quot.sound |
| C118 | `Verif.Clock.C118_tolerance` | propext, Classical.choice, Quot.sound |
| C118 | `Verif.Clock.C118_uart` | propext, Quot.sound |
| C118 | `Verif.Clock.C118_uart_shipped` | propext, Classical.choice, Quot.sound |
| C118 | `Verif.Clock.C118_readback` | propext, Classical.choice, Quot.sound |
| C119 | `Verif.Inherit.C119_never_fails` | propext, Classical.choice, Quot.sound |
| C119 | `Verif.Inherit.C119_never_fails_orderly` | propext, Classical.choice, Quot.sound |
| C119 | `Verif.Inherit.C119_stale_limited` | propext, Classical.choice, Quot.sound |
| C119 | `Verif.Inherit.C119_own_priority_back` | propext, Classical.choice, Quot.sound |
| C119 | `Verif.Inherit.C119_holder_high` | propext, Classical.choice, Quot.sound |
| C119 | `Verif.Inherit.C119_holder_high_limited` | propext, Classical.choice, Quot.sound |
| C119 | `Verif.Inherit.C119_holder_high_forever` | propext, Classical.choice, Quot.sound |
| C119 | `Verif.Inherit.C119_not_too_high` | propext, Classical.choice, Quot.sound |
| C119 | `Verif.Inherit.C119_no_inversion` | propext, Classical.choice, Quot.sound |
| C119 | `Verif.Inherit.C119_exclusive` | propext, Classical.choice, Quot.sound |
| C119 | `Verif.Inherit.C119_waiting_sleeps` | propext, Classical.choice, Quot.sound |
| C119 | `Verif.Inherit.C119_free_is_offered` | propext, Classical.choice, Quot.sound |
| C119 | `Verif.Inherit.C119_two_limits_fail` | propext, Quot.sound |
| C12 | `Verif.FaultMgr.C12_codes_partial` | propext, Quot.sound |
| C12 | `Verif.FaultMgr.C12_lv_codes_collide` | none |
| C120 | `Verif.Context.C120_resumes` | propext, Classical.choice, Quot.sound |
| C120 | `Verif.Context.C120_resumes_self` | propext, Classical.choice, Quot.sound |
| C120 | `Verif.Context.C120_starts` | propext, Classical.choice, Quot.sound |
| C120 | `Verif.Context.C120_never_stuck` | propext, Classical.choice, Quot.sound |
| C120 | `Verif.Context.C120_first_starts` | propext, Classical.choice, Quot.sound |
| C120 | `Verif.Context.C120_can_switch` | propext, Classical.choice, Quot.sound |
| C120 | `Verif.Context.C120_untouched` | propext, Classical.choice, Quot.sound |
| C120 | `Verif.Context.C120_no_room` | propext, Classical.choice, Quot.sound |
| C121 | `Verif.Sbrk.C121_as_ideal` | propext, Quot.sound |
| C121 | `Verif.Sbrk.C121_in_bounds` | propext, Classical.choice, Quot.sound |
| C121 | `Verif.Sbrk.C121_disjoint` | propext, Classical.choice, Quot.sound |
| C121 | `Verif.Sbrk.C121_first_512` | propext, Quot.sound |
| C121 | `Verif.Sbrk.C121_below` | propext, Quot.sound |
| C122 | `Verif.Notify.C122_never_fails` | propext, Quot.sound |
| C122 | `Verif.Notify.C122_none_lost` | propext, Quot.sound |
| C122 | `Verif.Notify.C122_no_more_than_given` | propext, Quot.sound |
| C122 | `Verif.Notify.C122_sleeps_only_on_none` | propext, Quot.sound |
| C122 | `Verif.Notify.C122_give_wakes` | propext, Quot.sound |
| C122 | `Verif.Notify.C122_sleeps_until_told` | propext, Quot.sound |
| C122 | `Verif.Notify.C122_next_call_tells` | propext, Quot.sound |
| C123 | `Verif.Vehicle.C123_torque_ends_in_time` | propext, Classical.choice, Quot.sound |
| C124 | `Verif.Board.C124_each_pin_as_asked` | propext, Classical.choice, Quot.sound |
| C124 | `Verif.Board.C124_each_line_as_asked` | propext, Classical.choice, Quot.sound |
| C124 | `Verif.Board.C124_one_call` | propext, Classical.choice, Quot.sound |
| C124 | `Verif.Board.C124_board_wired` | propext, Classical.choice, Quot.sound |
| C124 | `Verif.Board.C124_other_pins_untouched` | propext, Classical.choice, Quot.sound |
| C124 | `Verif.Board.C124_lines` | propext, Classical.choice, Quot.sound |
| C124 | `Verif.Board.C124_levels` | propext, Classical.choice, Quot.sound |
| C124 | `Verif.Board.C124_outputs_start_low` | propext, Classical.choice, Quot.sound |
| C125 | `Verif.Board.C125_nothing_configured` | propext, Quot.sound |
| C125 | `Verif.Board.C125_not_what_is_needed` | propext, Quot.sound |
| C125 | `Verif.Board.C125_streams_partial` | propext, Classical.choice, Quot.sound |
| C126 | `Verif.Reset.C126_globals_initialised` | propext, Classical.choice, Quot.sound |
| C126 | `Verif.Reset.C126_every_image` | propext, Quot.sound |
| C126 | `Verif.Reset.C126_image_kept` | propext, Quot.sound |
| C127 | `Verif.Vectors.C127_numbers` | propext |
| C127 | `Verif.Vectors.C127_reaches` | propext, Classical.choice, Quot.sound |
| C127 | `Verif.Vectors.C127_heard` | propext, Classical.choice, Quot.sound |
| C127 | `Verif.Vectors.C127_let_through` | propext, Classical.choice, Quot.sound |
| C127 | `Verif.Vectors.C127_levels` | propext, Classical.choice, Quot.sound |
| C127 | `Verif.Vectors.C127_levels_of_C101` | none |
| C128 | `Verif.Exti.C128_no_edge_lost` | propext, Classical.choice, Quot.sound |
| C128 | `Verif.Exti.C128_no_callback_made_up` | propext, Classical.choice, Quot.sound |
| C128 | `Verif.Exti.C128_served` | propext, Classical.choice, Quot.sound |
| C129 | `Verif.UartRx.C129_keeps_listening_partial` | propext, Quot.sound |
| C129 | `Verif.UartRx.C129_no_null_call_partial` | propext, Quot.sound |
| C129 | `Verif.UartRx.C129_message_end_partial` | propext, Quot.sound |
| C129 | `Verif.UartRx.C129_deaf_for_good` | propext |
| C129 | `Verif.UartRx.C129_each_place_matters` | propext |
| C13 | `Verif.Throttle.C13_zero_outside` | propext, Classical.choice, Quot.sound |
| C13 | `Verif.Throttle.C13_dead_zone` | propext, Classical.choice, Quot.sound |
| C13 | `Verif.Throttle.C13_break_points` | propext, Classical.choice, Quot.sound |
| C13 | `Verif.Throttle.C13_forward_range` | propext, Classical.choice, Quot.sound |
| C13 | `Verif.Throttle.C13_forward_monotone` | propext, Classical.choice, Quot.sound |
| C13 | `Verif.Throttle.C13_reverse_monotone_partial` | propext, Classical.choice, Quot.sound |
| C13 | `Verif.Throttle.C13_reverse_range_partial` | propext, Classical.choice, Quot.sound |
| C13 | `Verif.Throttle.C13_reverse_not_monotone` | propext, Classical.choice, Quot.sound |
| C13 | `Verif.Throttle.C13_reverse_exceeds_maximum` | propext, Classical.choice, Quot.sound |
| C130 | `Verif.SimServer.C130_shown` | propext, Classical.choice, Quot.sound |
| C130 | `Verif.SimServer.C130_not_a_byte` | propext, Classical.choice, Quot.sound |
| C131 | `Verif.Vehicle.C131_only_terminal` | propext, Classical.choice, Quot.sound |
| C131 | `Verif.Vehicle.C131_control_off` | propext, Classical.choice, Quot.sound |
| C132 | `Verif.Rtc.C132_clock_partial` | propext, Classical.choice, Quot.sound |
| C132 | `Verif.Rtc.C132_round_trip` | propext, Classical.choice, Quot.sound |
| C132 | `Verif.Rtc.C132_day_behind` | propext, Classical.choice, Quot.sound |
| C132 | `Verif.Rtc.C132_day_ahead` | propext, Classical.choice, Quot.sound |
| C132 | `Verif.Rtc.C132_month_constants` | propext, Quot.sound |
| C133 | `Verif.Car.C133_bus_to_bus` | propext, Classical.choice, Quot.sound |
| C134 | `Verif.UartTx.C134_one_at_a_time` | propext, Classical.choice, Quot.sound |
| C134 | `Verif.UartTx.C134_every_transfer_ends` | propext, Classical.choice, Quot.sound |
| C134 | `Verif.UartTx.C134_ready_again` | propext, Classical.choice, Quot.sound |
| C134 | `Verif.UartTx.C134_none_refused` | propext, Classical.choice, Quot.sound |
| C134 | `Verif.UartTx.forever_fair` | propext, Classical.choice, Quot.sound |
| C135 | `Verif.Vehicle.C135_drives_when_asked` | propext, Classical.choice, Quot.sound |
| C136 | `Verif.Throttle.C136_follows_the_curve` | propext, Classical.choice, Quot.sound |
| C136 | `Verif.Throttle.C136_frame_follows_the_curve` | propext, Classical.choice, Quot.sound |
| C137 | `Verif.Screen.C137_bus_to_screen` | propext, Classical.choice, Quot.sound |
| C138 | `Verif.Vehicle.C138_current_pedal` | propext, Classical.choice, Quot.sound |
| C138 | `Verif.Vehicle.C138_easing_off` | propext, Classical.choice, Quot.sound |
| C138 | `Verif.Vehicle.C138_released` | propext, Classical.choice, Quot.sound |
| C139 | `Verif.Vehicle.C139_command_every_period` | propext, Classical.choice, Quot.sound |
| C139 | `Verif.Vehicle.C139_no_silence` | propext, Classical.choice, Quot.sound |
| C14 | `Verif.Throttle.C14_requested_torque` | propext, Classical.choice, Quot.sound |
| C14 | `Verif.Throttle.C14_always_representable` | propext, Classical.choice, Quot.sound |
| C140 | `Verif.Vehicle.C140_outputs_as_asked` | propext, Classical.choice, Quot.sound |
| C141 | `Verif.InvCar.C141_ready_before_torque` | propext, Classical.choice, Quot.sound |
| C142 | `Verif.Loop.C142_asked_is_shown` | propext, Classical.choice, Quot.sound |
| C143 | `Verif.SenseCar.C143_two_presses_before_torque` | propext, Classical.choice, Quot.sound |
| C144 | `Verif.SenseCar.C144_pedal_to_bus` | propext, Classical.choice, Quot.sound |
| C144 | `Verif.SenseCar.C144_released` | propext, Classical.choice, Quot.sound |
| C145 | `Verif.TimIrq.C145_no_callback_made_up` | propext, Classical.choice, Quot.sound |
| C145 | `Verif.TimIrq.C145_no_update_lost` | propext, Classical.choice, Quot.sound |
| C145 | `Verif.TimIrq.C145_served` | propext, Classical.choice, Quot.sound |
| C145 | `Verif.TimIrq.C145_notified` | propext, Quot.sound |
| C145 | `Verif.TimIrq.C145_first_at_once` | propext, Quot.sound |
| C146 | `Verif.AdcRegs.C146_one_call` | propext, Classical.choice, Quot.sound |
| C146 | `Verif.AdcRegs.C146_last_call_counts` | propext, Classical.choice, Quot.sound |
| C146 | `Verif.AdcRegs.C146_settings` | propext, Classical.choice, Quot.sound |
| C146 | `Verif.AdcRegs.C146_sequence` | propext, Classical.choice, Quot.sound |
| C146 | `Verif.AdcRegs.C146_pins` | propext, Classical.choice, Quot.sound |
| C146 | `Verif.AdcRegs.C146_started` | propext, Classical.choice, Quot.sound |
| C146 | `Verif.AdcRegs.C146_time` | propext, Classical.choice, Quot.sound |
| C146 | `Verif.AdcRegs.C146_driver_settings` | propext, Classical.choice, Quot.sound |
| C147 | `Verif.Vehicle.C147_session` | propext, Classical.choice, Quot.sound |
| C147 | `Verif.Vehicle.C147_text` | propext, Quot.sound |
| C148 | `Verif.SdcScreen.C148_rise_on_screen_partial` | propext, Classical.choice, Quot.sound |
| C148 | `Verif.SdcScreen.C148_fall_not_shown` | propext, Classical.choice, Quot.sound |
| C149 | `Verif.Vehicle.C149_throttle_stopped_partial` | propext, Classical.choice, Quot.sound |
| C149 | `Verif.Vehicle.C149_manager_stopped` | propext, Classical.choice, Quot.sound |
| C149 | `Verif.Vehicle.C149_publishing_stopped` | propext, Classical.choice, Quot.sound |
| C15 | `Verif.Throttle.C15_late_request_possible` | propext, Classical.choice, Quot.sound |
| C15 | `Verif.Throttle.C15_at_most_one_late_request_partial` | propext, Classical.choice, Quot.sound |
| C15 | `Verif.Throttle.interleaved_refines_tick` | propext, Classical.choice, Quot.sound |
| C150 | `Verif.UartLine.C150_settings` | propext, Classical.choice, Quot.sound |
| C150 | `Verif.UartLine.C150_line` | propext, Classical.choice, Quot.sound |
| C150 | `Verif.UartLine.C150_links` | propext, Classical.choice, Quot.sound |
| C151 | `Verif.Halt.C151_silent` | propext, Classical.choice, Quot.sound |
| C152 | `Verif.CanLine.C152_settings` | propext, Classical.choice, Quot.sound |
| C152 | `Verif.CanLine.C152_line` | propext, Classical.choice, Quot.sound |
| C152 | `Verif.CanLine.C152_links` | propext, Classical.choice, Quot.sound |
| C153 | `Verif.SenseCar.C153_out_of_range` | propext, Classical.choice, Quot.sound |
| C153 | `Verif.SenseCar.C153_sensors_apart` | propext, Classical.choice, Quot.sound |
| C153 | `Verif.SenseCar.C153_both_pedals` | propext, Classical.choice, Quot.sound |
| C154 | `Verif.Ready.C154_time_goes_up` | propext, Classical.choice, Quot.sound |
| C154 | `Verif.Ready.C154_done_in_time` | propext, Classical.choice, Quot.sound |
| C154 | `Verif.Ready.C154_nothing_owed` | propext, Quot.sound |
| C155 | `Verif.ClockStart.C155_within_limits` | propext, Classical.choice, Quot.sound |
| C155 | `Verif.ClockStart.C155_at_the_end` | propext, Classical.choice, Quot.sound |
| C155 | `Verif.ClockStart.C155_pll_set_while_off` | propext, Classical.choice, Quot.sound |
| C156 | `Verif.Whole.C156_fault_has_cause_partial` | propext, Classical.choice, Quot.sound |
| C156 | `Verif.Whole.C156_before_report` | propext, Classical.choice, Quot.sound |
| C156 | `Verif.Whole.C156_cause_found` | propext, Classical.choice, Quot.sound |
| C157 | `Verif.Whole.C157_drives_from_outside` | propext, Classical.choice, Quot.sound |
| C158 | `Verif.Throttle.C158_outside` | propext, Classical.choice, Quot.sound |
| C158 | `Verif.Throttle.C158_line` | propext, Classical.choice, Quot.sound |
| C158 | `Verif.Throttle.C158_points` | propext, Classical.choice, Quot.sound |
| C158 | `Verif.Throttle.C158_step_is_nan` | propext, Classical.choice, Quot.sound |
| C159 | `Verif.StartRace.C159_made_before_used` | propext, Classical.choice, Quot.sound |
| C159 | `Verif.StartRace.C159_never_waits` | propext, Classical.choice, Quot.sound |
| C159 | `Verif.StartRace.C159_lower_tasks_wait` | propext, Classical.choice, Quot.sound |
| C159 | `Verif.StartRace.C159_complete` | propext, Classical.choice, Quot.sound |
| C159 | `Verif.StartRace.C159_completes` | propext, Classical.choice, Quot.sound |
| C159 | `Verif.StartRace.C159_order_matters` | propext, Classical.choice, Quot.sound |
| C16 | `Verif.InvDrv.C16_enable_discharge_exclusive` | propext, Classical.choice, Quot.sound |
| C160 | `Verif.RtcRate.C160_behind` | propext, Classical.choice, Quot.sound |
| C160 | `Verif.RtcRate.C160_counts` | propext, Classical.choice, Quot.sound |
| C160 | `Verif.RtcRate.C160_power_on` | propext |
| C160 | `Verif.RtcRate.C160_rate` | propext, Classical.choice, Quot.sound |
| C160 | `Verif.RtcRate.C160_only_watch_crystal` | propext |
| C160 | `Verif.RtcRate.C160_clock_partial` | propext, Classical.choice, Quot.sound |
| C160 | `Verif.RtcRate.C160_restart` | propext, Quot.sound |
| C160 | `Verif.RtcRate.C160_prescalers_kept` | propext, Quot.sound |
| C160 | `Verif.RtcRate.C160_source_change` | none |
| C161 | `Verif.Ready.C161_ends` | propext, Classical.choice, Quot.sound |
| C161 | `Verif.Ready.C161_never_again` | propext, Classical.choice, Quot.sound |
| C161 | `Verif.Ready.C161_counted` | propext, Classical.choice, Quot.sound |
| C161 | `Verif.Ready.C161_cleared` | propext, Classical.choice, Quot.sound |
| C162 | `Verif.Term.C162_answers` | propext, Classical.choice, Quot.sound |
| C163 | `Verif.Memory.C163_fits` | propext |
| C163 | `Verif.Memory.C163_alone` | propext, Classical.choice, Quot.sound |
| C163 | `Verif.Memory.C163_streams` | propext, Classical.choice, Quot.sound |
| C163 | `Verif.Memory.C163_stacks` | propext, Classical.choice, Quot.sound |
| C164 | `Verif.BootLog.C164_report` | propext, Classical.choice, Quot.sound |
| C164 | `Verif.BootLog.C164_nothing_before` | propext, Classical.choice, Quot.sound |
| C164 | `Verif.BootLog.C164_sent` | propext, Classical.choice, Quot.sound |
| C164 | `Verif.BootLog.C164_screen` | propext, Classical.choice, Quot.sound |
| C164 | `Verif.BootLog.C164_happens` | propext, Classical.choice, Quot.sound |
| C165 | `Verif.BootLog.C165_false` | propext, Classical.choice, Quot.sound |
| C165 | `Verif.BootLog.C165_silent` | propext, Classical.choice, Quot.sound |
| C165 | `Verif.BootLog.C165_happens` | propext, Classical.choice, Quot.sound |
| C165 | `Verif.BootLog.C165_waiting_partial` | propext, Classical.choice, Quot.sound |
| C166 | `Verif.Burst.C166_false` | propext, Classical.choice, Quot.sound |
| C166 | `Verif.Burst.C166_lost` | propext, Classical.choice, Quot.sound |
| C166 | `Verif.Burst.C166_held_off` | propext, Classical.choice, Quot.sound |
| C166 | `Verif.Burst.C166_report_cut` | propext, Classical.choice, Quot.sound |
| C166 | `Verif.Burst.C166_fits_partial` | propext, Classical.choice, Quot.sound |
| C17 | `Verif.InvDrv.C17_torque_command_partial` | propext, Classical.choice, Quot.sound |
| C17 | `Verif.InvDrv.C17_nan_is_undefined` | propext, Classical.choice, Quot.sound |
| C18 | `Verif.InvDrv.C18_enable_preceded_by_disable` | propext, Classical.choice, Quot.sound |
| C18 | `Verif.InvDrv.C18_stream_lockout` | propext, Classical.choice, Quot.sound |
| C18 | `Verif.InvDrv.C18_disable_frame_can_be_lost` | propext, Classical.choice, Quot.sound |
| C19 | `Verif.InvDrv.C19_torque_discharge_partial` | propext, Classical.choice, Quot.sound |
| C19 | `Verif.InvDrv.C19_enable_always_reports_ok` | propext, Classical.choice, Quot.sound |
| C20 | `Verif.InvDrv.C20_last_frame_partial` | propext, Classical.choice, Quot.sound |
| C20 | `Verif.InvDrv.C20_mismatch_reachable` | propext, Classical.choice, Quot.sound |
| C21 | `Verif.InvDrv.C21_frame_decodes` | propext, Quot.sound |
| C21 | `Verif.InvDrv.C21_command_frame` | propext, Classical.choice, Quot.sound |
| C22 | `Verif.Dbc.C22_frame` | propext, Classical.choice, Quot.sound |
| C22 | `Verif.Dbc.C22_stream` | propext, Classical.choice, Quot.sound |
| C23 | `Verif.Dbc.C23_layout_partial` | propext, Classical.choice, Quot.sound |
| C23 | `Verif.Dbc.C23_documented_scale_violated` | propext, Classical.choice, Quot.sound |
| C23 | `Verif.Dbc.C23_scale_partial` | propext, Classical.choice, Quot.sound |
| C23 | `Verif.Dbc.C23_stream` | propext, Classical.choice, Quot.sound |
| C24 | `Verif.Can.C24_routing` | propext, Classical.choice, Quot.sound |
| C24 | `Verif.Can.C24_stream` | propext, Classical.choice, Quot.sound |
| C24 | `Verif.Can.C24_unconfigured_bus` | propext, Quot.sound |
| C24 | `Verif.Can.C24_register` | propext, Classical.choice, Quot.sound |
| C24 | `Verif.Can.C24_shipped_masks` | propext, Quot.sound |
| C24 | `Verif.Can.C24_registrations` | propext, Classical.choice, Quot.sound |
| C25 | `Verif.Can.C25_queued_frames_never_sent` | propext, Quot.sound |
| C25 | `Verif.Can.C25_accepted_frame_lost` | propext, Quot.sound |
| C25 | `Verif.Can.C25_no_progress` | propext, Quot.sound |
| C25 | `Verif.Can.C25_overtaking_with_interrupt` | none |
| C25 | `Verif.Can.C25_conservation` | propext, Quot.sound |
| C25 | `Verif.Can.C25_direct_partial` | propext, Quot.sound |
| C25 | `Verif.Can.C25_fifo_with_interrupt_partial` | propext, Quot.sound |
| C26 | `Verif.Can.C26_stale_identifier` | propext, Quot.sound |
| C26 | `Verif.Can.C26_extended_frame_forges_pack_state` | propext, Classical.choice, Quot.sound |
| C26 | `Verif.Can.C26_standard_frames_partial` | propext, Classical.choice, Quot.sound |
| C27 | `Verif.Can.C27_safe_iff` | propext, Classical.choice, Quot.sound |
| C27 | `Verif.Can.C27_overflow` | none |
| C27 | `Verif.Can.C27_eight_bytes_partial` | propext, Classical.choice, Quot.sound |
| C28 | `Verif.Uart.C28_message_stuck` | propext |
| C28 | `Verif.Uart.C28_overtaking` | propext, Quot.sound |
| C28 | `Verif.Uart.C28_noise_corrupts_running_message` | propext |
| C28 | `Verif.Uart.C28_conservation_partial` | propext, Quot.sound |
| C28 | `Verif.Uart.C28_exact_stream_partial` | propext, Quot.sound |
| C28 | `Verif.Uart.C28_loss_only_when_full` | propext, Quot.sound |
| C29 | `Verif.Uart.C29_overflow` | propext |
| C29 | `Verif.Uart.C29_empty_halts` | propext, Quot.sound |
| C29 | `Verif.Uart.C29_safe_partial` | propext, Quot.sound |
| C29 | `Verif.Uart.C29_completion_chunk_fits` | propext, Quot.sound |
| C30 | `Verif.MsgFrame.C30_safe_partial` | propext, Classical.choice, Quot.sound |
| C30 | `Verif.MsgFrame.C30_short_lengths_unsafe` | propext, Quot.sound |
| C30 | `Verif.MsgFrame.C30_length_two` | propext, Quot.sound |
| C30 | `Verif.MsgFrame.C30_safe_iff` | propext, Classical.choice, Quot.sound |
| C31 | `Verif.MsgFrame.C31_sound` | propext, Classical.choice, Quot.sound |
| C32 | `Verif.MsgFrame.C32_greedy_parse` | propext, Classical.choice, Quot.sound |
| C32 | `Verif.MsgFrame.C32_batches_accepted` | propext, Classical.choice, Quot.sound |
| C32 | `Verif.MsgFrame.C32_cut_independent` | propext, Classical.choice, Quot.sound |
| C32 | `Verif.MsgFrame.C32_parse_positions` | propext, Quot.sound |
| C33 | `Verif.MsgFrame.C33_round_trip` | propext, Classical.choice, Quot.sound |
| C34 | `Verif.MsgFrame.C34_zero_field_accepted` | propext, Quot.sound |
| C34 | `Verif.MsgFrame.C34_only_zero_field_partial` | propext, Classical.choice, Quot.sound |
| C35 | `Verif.PcReq.C35_never_wedges` | propext, Classical.choice, Quot.sound |
| C35 | `Verif.PcReq.C35_no_request_lost` | propext, Classical.choice, Quot.sound |
| C36 | `Verif.PcReq.C36_effects` | propext, Quot.sound |
| C36 | `Verif.PcReq.C36_provenance` | propext, Classical.choice, Quot.sound |
| C37 | `Verif.Nmea.C37_prefix_breaks` | propext, Classical.choice, Quot.sound |
| C37 | `Verif.Nmea.C37_two_sentences_break` | propext, Classical.choice, Quot.sound |
| C37 | `Verif.Nmea.C37_long_field_overflows` | propext, Classical.choice, Quot.sound |
| C37 | `Verif.Nmea.C37_full_buffer_breaks` | propext, Classical.choice, Quot.sound |
| C37 | `Verif.Nmea.C37_call_safe_partial` | propext, Classical.choice, Quot.sound |
| C37 | `Verif.Nmea.C37_until_first_fix_partial` | propext, Classical.choice, Quot.sound |
| C38 | `Verif.Nmea.C38_stale_bytes_accepted` | propext, Quot.sound |
| C38 | `Verif.Nmea.C38_sound_partial` | propext, Quot.sound |
| C39 | `Verif.Nmea.C39_cut_sentence_lost` | propext, Classical.choice, Quot.sound |
| C39 | `Verif.Nmea.C39_long_read_dropped` | propext, Quot.sound |
| C39 | `Verif.Nmea.C39_one_per_read_partial` | propext, Classical.choice, Quot.sound |
| C39 | `Verif.Nmea.C37_prefix_breaks` | propext, Classical.choice, Quot.sound |
| C40 | `Verif.Nmea.C40_decimal_digit` | propext, Quot.sound |
| C40 | `Verif.Nmea.C40_hex_digit` | propext, Quot.sound |
| C40 | `Verif.Nmea.C40_decimal_number` | propext, Quot.sound |
| C40 | `Verif.Nmea.C40_time` | propext, Classical.choice, Quot.sound |
| C40 | `Verif.Nmea.C40_position` | propext, Quot.sound |
| C40 | `Verif.Nmea.C40_accepted` | propext, Classical.choice, Quot.sound |
| C41 | `Verif.Nmea.C41_type_left_set` | propext, Quot.sound |
| C41 | `Verif.Nmea.C41_type_null_partial` | propext, Classical.choice, Quot.sound |
| C42 | `Verif.Term.C42_nine_words_overflow` | propext, Classical.choice, Quot.sound |
| C42 | `Verif.Term.C42_help_unknown` | propext, Classical.choice, Quot.sound |
| C42 | `Verif.Term.C42_help_breaks` | propext, Classical.choice, Quot.sound |
| C42 | `Verif.Term.C42_safe_partial` | propext, Classical.choice, Quot.sound |
| C43 | `Verif.Term.C43_two_lines_merge` | propext, Classical.choice, Quot.sound |
| C43 | `Verif.Term.C43_blank_breaks` | propext, Classical.choice, Quot.sound |
| C43 | `Verif.Term.C43_full_drops` | propext, Classical.choice, Quot.sound |
| C43 | `Verif.Term.C43_lines_partial` | propext, Classical.choice, Quot.sound |
| C44 | `Verif.Term.C44_all_or_nothing` | propext, Classical.choice, Quot.sound |
| C44 | `Verif.Term.C44_line` | propext, Classical.choice, Quot.sound |
| C44 | `Verif.Term.C44_answers` | propext, Classical.choice, Quot.sound |
| C45 | `Verif.Term.C45_overflow` | propext, Quot.sound |
| C45 | `Verif.Term.C45_frame_partial` | propext, Classical.choice, Quot.sound |
| C45 | `Verif.Term.C45_terminal_texts_fit` | propext, Classical.choice, Quot.sound |
| C46 | `Verif.Telemetry.C46_fields_partial` | propext, Classical.choice, Quot.sound |
| C46 | `Verif.Telemetry.C46_max_temp_id_wrong` | propext, Quot.sound |
| C47 | `Verif.LogStream.C47_log_stream` | propext, Classical.choice, Quot.sound |
| C47 | `Verif.LogStream.C47_returns` | propext, Classical.choice, Quot.sound |
| C48 | `Verif.Adc.C48_last_sweep_partial` | propext, Classical.choice, Quot.sound |
| C48 | `Verif.Adc.C48_half_word_wrong` | propext, Classical.choice, Quot.sound |
| C49 | `Verif.Adc.C49_count_accepted` | propext, Classical.choice, Quot.sound |
| C49 | `Verif.Adc.C49_refused_partial` | propext, Quot.sound |
| C50 | `Verif.Adc.C50_scaling` | propext, Classical.choice, Quot.sound |
| C50 | `Verif.Adc.C50_equal_points` | propext, Classical.choice, Quot.sound |
| C51 | `Verif.DiscreteSense.C51_publication` | propext, Classical.choice, Quot.sound |
| C52 | `Verif.Wheelspeed.C52_batch_partial` | propext, Classical.choice, Quot.sound |
| C52 | `Verif.Wheelspeed.C52_boundary_edge_lost` | propext, Classical.choice, Quot.sound |
| C52 | `Verif.Wheelspeed.C52_zero_teeth` | propext, Quot.sound |
| C52 | `Verif.Wheelspeed.C52_samples_fifo` | propext, Classical.choice, Quot.sound |
| C52 | `Verif.Wheelspeed.C52_sample_levels` | propext, Quot.sound |
| C52 | `Verif.Wheelspeed.C52_sample_kept` | propext, Quot.sound |
| C52 | `Verif.Wheelspeed.C52_all_accepted` | propext, Classical.choice, Quot.sound |
| C53 | `Verif.Periodic.C53_heartbeat` | propext, Classical.choice, Quot.sound |
| C53 | `Verif.Periodic.C53_wheel_schedule` | propext, Classical.choice, Quot.sound |
| C53 | `Verif.Periodic.C53_wheel_glitch` | propext, Classical.choice, Quot.sound |
| C53 | `Verif.Periodic.C53_wheel_partial` | propext, Classical.choice, Quot.sound |
| C53 | `Verif.Periodic.C53_broadcast_schedule` | propext, Classical.choice, Quot.sound |
| C53 | `Verif.Periodic.C53_broadcast_glitch` | propext, Classical.choice, Quot.sound |
| C53 | `Verif.Periodic.C53_broadcast_partial` | propext, Classical.choice, Quot.sound |
| C54 | `Verif.Sdc.C54_published` | propext, Quot.sound |
| C54 | `Verif.Sdc.C54_settles` | propext, Quot.sound |
| C54 | `Verif.Sdc.C54_locked` | propext, Quot.sound |
| C55 | `Verif.Pdm.C55_mirror` | propext, Quot.sound |
| C55 | `Verif.Pdm.C55_refused_no_effect` | propext, Quot.sound |
| C55 | `Verif.Pdm.C55_shipped` | propext, Quot.sound |
| C56 | `Verif.TaskTimer.C56_notifications` | propext, Quot.sound |
| C56 | `Verif.TaskTimer.C56_refusal_no_effect` | none |
| C56 | `Verif.TaskTimer.C56_ignored_before_init` | propext |
| C56 | `Verif.TaskTimer.C56_null_timer` | propext |
| C57 | `Verif.Depends.C57_ids_partial` | propext, Classical.choice, Quot.sound |
| C57 | `Verif.Depends.C57_wrap` | propext, Quot.sound |
| C58 | `Verif.Startup.C58_completes` | propext, Quot.sound |
| C58 | `Verif.Startup.C58_fails_safe` | propext, Quot.sound |
| C59 | `Verif.I2c.C59_i2c_partial` | propext |
| C59 | `Verif.Spi.C59_spi_partial` | propext, Classical.choice, Quot.sound |
| C59 | `Verif.Spi.C59_spi_lost` | propext, Classical.choice, Quot.sound |
| C59 | `Verif.Spi.C59_blocking_released` | propext, Quot.sound |
| C60 | `Verif.I2c.C60_config_fresh` | none |
| C60 | `Verif.I2c.C60_first_read_unfinished` | propext, Quot.sound |
| C60 | `Verif.I2c.C60_completion_halts` | propext |
| C60 | `Verif.I2c.C60_second_read` | propext, Quot.sound |
| C60 | `Verif.I2c.C60_ok_only_once` | propext |
| C60 | `Verif.I2c.C60_early_partial` | propext, Quot.sound |
| C60 | `Verif.I2c.C60_only_second_interface` | none |
| C60 | `Verif.I2c.C60_own_bus` | none |
| C61 | `Verif.LogStream.C61_log_print_partial` | propext, Classical.choice, Quot.sound |
| C62 | `Verif.Throttle.C62_forward_torque_in_reverse` | propext, Classical.choice, Quot.sound |
| C62 | `Verif.Throttle.C62_consistent_without_interference_partial` | propext, Classical.choice, Quot.sound |
| C63 | `Verif.FaultMgr.C63_can_silence_not_detected` | propext, Classical.choice, Quot.sound |
| C63 | `Verif.FaultMgr.C63_healthy_then_silent_forever` | propext, Classical.choice, Quot.sound |
| C64 | `Verif.FaultMgr.C64_inverter_faults_never_raised` | propext, Classical.choice, Quot.sound |
| C64 | `Verif.FaultMgr.C09_each_fault_bit` | propext, Classical.choice, Quot.sound |
| C65 | `Verif.Can.C65_remote_frame_decoded` | propext, Quot.sound |
| C66 | `Verif.Uart.C66_false` | propext, Quot.sound |
| C66 | `Verif.Uart.C66_half_transfer_duplicates` | propext, Quot.sound |
| C66 | `Verif.Uart.C66_short_bursts_partial` | propext, Quot.sound |
| C66 | `Verif.Uart.C66_errors_partial` | propext, Quot.sound |
| C67 | `Verif.PcReq.C67_ports_interfere` | propext, Quot.sound |
| C67 | `Verif.PcReq.C67_contiguous_partial` | propext, Classical.choice, Quot.sound |
| C67 | `Verif.StreamBuf.C98_overlap_loses` | propext, Classical.choice, Quot.sound |
| C68 | `Verif.Adc.C68_pedals_read_zero` | propext, Classical.choice, Quot.sound |
| C68 | `Verif.Adc.C68_one_shot_frozen` | propext, Classical.choice, Quot.sound |
| C68 | `Verif.DiscreteSense.C68_published_zero` | propext, Classical.choice, Quot.sound |
| C69 | `Verif.Sdc.C69_fall_unnoticed` | propext, Quot.sound |
| C69 | `Verif.Sdc.C69_startup_unnoticed` | propext, Quot.sound |
| C69 | `Verif.Sdc.C69_after_rise_partial` | propext, Quot.sound |
| C70 | `Verif.Startup.C70_others_partial` | propext, Quot.sound |
| C70 | `Verif.Startup.C70_sdc_null` | propext, Quot.sound |
| C70 | `Verif.Startup.C70_sdc_null_reached` | propext, Quot.sound |
| C70 | `Verif.Startup.C70_sdc_no_task` | propext, Quot.sound |
| C71 | `Verif.Startup.C71_timer_never_runs` | propext, Quot.sound |
| C71 | `Verif.Startup.C71_never_published` | propext, Quot.sound |
| C72 | `Verif.Startup.C72_not_signalled` | propext, Quot.sound |
| C73 | `Verif.SharedOutputs.C73_inverted` | propext, Classical.choice, Quot.sound |
| C73 | `Verif.SharedOutputs.C73_level` | propext, Classical.choice, Quot.sound |
| C73 | `Verif.SharedOutputs.C73_shown_partial` | propext, Classical.choice, Quot.sound |
| C74 | `Verif.SharedOutputs.C74_reasserted_partial` | propext, Classical.choice, Quot.sound |
| C74 | `Verif.SharedOutputs.C74_released` | propext, Quot.sound |
| C74 | `Verif.Vehicle.C74_last_write_partial` | propext, Classical.choice, Quot.sound |
| C75 | `Verif.SharedOutputs.C75_button_releases` | propext |
| C75 | `Verif.SharedOutputs.C75_only_button_partial` | propext |
| C76 | `Verif.Drive.C76_frames` | propext, Classical.choice, Quot.sound |
| C76 | `Verif.Drive.C76_no_torque_before_drive` | propext, Classical.choice, Quot.sound |
| C77 | `Verif.Drive.C77_late_torque` | propext, Classical.choice, Quot.sound |
| C77 | `Verif.Drive.C77_at_most_one_partial` | propext, Classical.choice, Quot.sound |
| C78 | `Verif.Drive.C78_never_disabled` | propext, Classical.choice, Quot.sound |
| C78 | `Verif.Drive.C78_fault_frame` | propext, Classical.choice, Quot.sound |
| C78 | `Verif.Drive.C78_not_disabled` | propext, Classical.choice, Quot.sound |
| C78 | `Verif.Drive.C78_not_before_hv_partial` | propext, Classical.choice, Quot.sound |
| C79 | `Verif.Gps.C79_stack_published` | propext, Classical.choice, Quot.sound |
| C79 | `Verif.Gps.C79_stack_visible` | propext, Classical.choice, Quot.sound |
| C79 | `Verif.Gps.C79_strings_partial` | propext, Classical.choice, Quot.sound |
| C80 | `Verif.Gps.C80_activation` | propext, Classical.choice, Quot.sound |
| C80 | `Verif.Gps.C80_always_room` | propext, Classical.choice, Quot.sound |
| C80 | `Verif.Gps.C80_log_line` | propext, Quot.sound |
| C80 | `Verif.Gps.C80_log_line_limit` | propext, Quot.sound |
| C80 | `Verif.Gps.C80_large_batch` | propext, Classical.choice, Quot.sound |
| C81 | `Verif.Crc.C81_same_checksum` | propext, Classical.choice, Quot.sound |
| C81 | `Verif.Crc.C81_when_locked` | propext, Classical.choice, Quot.sound |
| C82 | `Verif.Crc.C82_undetected` | propext, Classical.choice, Quot.sound |
| C82 | `Verif.Crc.C82_not` | propext, Classical.choice, Quot.sound |
| C82 | `Verif.Crc.C82_burst_partial` | propext, Classical.choice, Quot.sound |
| C82 | `Verif.Crc.C82_field_partial` | propext, Classical.choice, Quot.sound |
| C82 | `Verif.Crc.C82_bits_partial` | propext, Classical.choice, Quot.sound |
| C83 | `Verif.PcTool.C83_parse` | propext, Classical.choice, Quot.sound |
| C83 | `Verif.PcTool.C83_chunks` | propext, Classical.choice, Quot.sound |
| C84 | `Verif.PcTool.C84_not` | propext, Quot.sound |
| C84 | `Verif.PcTool.C84_shows_partial` | propext, Classical.choice, Quot.sound |
| C84 | `Verif.PcTool.C84_logs_alone_partial` | propext, Classical.choice, Quot.sound |
| C85 | `Verif.PcTool.C85_log_text_partial` | propext, Classical.choice, Quot.sound |
| C85 | `Verif.PcTool.C84_logs_alone_partial` | propext, Classical.choice, Quot.sound |
| C86 | `Verif.PcTool.C86_state_partial` | propext, Classical.choice, Quot.sound |
| C87 | `Verif.PcTool.C87_encode` | propext, Classical.choice, Quot.sound |
| C88 | `Verif.PcTool.C88_not` | propext, Classical.choice, Quot.sound |
| C88 | `Verif.PcTool.C88_missed` | propext, Classical.choice, Quot.sound |
| C89 | `Verif.Startup.C89_collapse` | propext, Quot.sound |
| C89 | `Verif.Startup.C89_not` | propext, Quot.sound |
| C89 | `Verif.Startup.C89_partial` | propext, Quot.sound |
| C90 | `Verif.CanHal.C90_mix` | propext, Classical.choice, Quot.sound |
| C90 | `Verif.CanHal.C90_not` | propext, Classical.choice, Quot.sound |
| C90 | `Verif.CanHal.C90_exclusive_partial` | propext, Classical.choice, Quot.sound |
| C91 | `Verif.CanHal.C91_torque_from_counter` | propext, Classical.choice, Quot.sound |
| C91 | `Verif.CanHal.C91_exclusive_partial` | propext, Classical.choice, Quot.sound |
| C92 | `Verif.LockProps.C92_consistent` | propext, Classical.choice, Quot.sound |
| C93 | `Verif.LockProps.C93_no_deadlock` | propext, Classical.choice, Quot.sound |
| C93 | `Verif.LockProps.C93_finish` | propext, Classical.choice, Quot.sound |
| C93 | `Verif.LockProps.C93_holder` | propext, Classical.choice, Quot.sound |
| C94 | `Verif.Ticks.C94_lost` | propext, Quot.sound |
| C94 | `Verif.Ticks.C94_not` | propext, Quot.sound |
| C94 | `Verif.Ticks.C94_at_most_one_per_period` | propext, Quot.sound |
| C94 | `Verif.Ticks.C94_exact_partial` | propext, Quot.sound |
| C95 | `Verif.Noninterf.C95_only_these_matter` | propext, Classical.choice, Quot.sound |
| C95 | `Verif.Noninterf.C95_inverter_reports_ignored` | propext, Classical.choice, Quot.sound |
| C96 | `Verif.CanFresh.C96_nothing_lost` | propext, Classical.choice, Quot.sound |
| C96 | `Verif.CanFresh.C96_inverter_fresh` | propext, Classical.choice, Quot.sound |
| C96 | `Verif.CanFresh.C96_bms_fresh` | propext, Classical.choice, Quot.sound |
| C96 | `Verif.CanFresh.C96_overflow_keeps_oldest` | propext, Classical.choice, Quot.sound |
| C97 | `Verif.Ticks.C97_wait_never_early` | propext, Quot.sound |
| C97 | `Verif.Ticks.C97_timeout_never_early` | propext, Quot.sound |
| C97 | `Verif.Ticks.C94_at_most_one_per_period` | propext, Quot.sound |
| C98 | `Verif.StreamBuf.C98_fifo` | propext, Classical.choice, Quot.sound |
| C98 | `Verif.StreamBuf.C98_safe` | propext, Classical.choice, Quot.sound |
| C98 | `Verif.StreamBuf.C98_send` | propext, Classical.choice, Quot.sound |
| C98 | `Verif.StreamBuf.C98_recv` | propext, Classical.choice, Quot.sound |
| C98 | `Verif.StreamBuf.C98_overlap_loses` | propext, Classical.choice, Quot.sound |
| C99 | `Verif.LogStream.C99_returns_iff` | propext, Classical.choice, Quot.sound |
| C99 | `Verif.LogStream.C99_empty_message_halts` | propext, Classical.choice, Quot.sound |
| C99 | `Verif.LogStream.C99_partial` | propext, Classical.choice, Quot.sound |
