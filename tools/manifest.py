#!/usr/bin/env python3
"""Writes MANIFEST.json from the table below; checks every id of properties.jsonl is present."""
import json,re,glob
S='Pico.Sched.'
L='Pico.Lite.'
X='Pico.Mtx.'
P='proved'; Q='partial'
M='Pico.SMP.'
T={
'C01':(P,S,'tick_runs_most_urgent',''),
'C02':(P,S,'sleep_lasts_exactly',''),
'C03':(P,S,'sleep_zero_stays_ready',''),
'C04':(P,S,'sleep_until_on_time sleep_until_no_drift sleep_until_wakes_on_grid',''),
'C05':(Q,S,'sleep_until_late_exact sleep_until_late_partial sleep_until_late_undocumented','the documented behaviour of a late call is false of the code; the exact behaviour is proved, the documented one under the missing hypothesis, and a counterexample history is proved'),
'C06':(P,S,'killed_never_runs',''),
'C07':(P,S,'tick_never_stalls syscall_never_stalls step_never_undefined idle_syscall_stalls',''),
'C08':(P,S,'resumed_where_suspended resumed_with_selected first_sp_is_prepared',''),
'C09':(P,S,'stack_overflow_stalls stack_bounds_constant',''),
'C10':(P,S,'get_tick_counts_ticks',''),
'C11':(P,S,'start_orders_tasks',''),
'C12':(P,S,'shared_priority_turns',''),
'C13':(Q,S,'one_turn_at_a_time round_robin_partial round_robin_wrap Pico.SMP.smp_round_robin_partial','one turn per window is false across the wrap of the truncated tick counter when the number of sharers is not a power of two (witness proved); proved away from the wrap or for dividing counts'),
'C14':(P,S,'add_task_accepts add_all_accepts',''),
'C15':(Q,S,'get_next_prio_exact get_next_prio_smallest_partial get_next_prio_wrong','the scan restarts at pid 1; exact result proved, documented result proved under the extra hypothesis, counterexample proved'),
'C16':(Q,S,'get_last_prio_exact get_last_prio_largest_partial get_last_prio_wrong','same defect as C15'),
'C17':(P,S,'start_in_bounds_iff start_lenient',''),
'C18':(P,S,'postpone_selects postponed_runs_again',''),
'C19':(P,S,'api_before_start_stalls api_after_start sleep_until_zero_period_stalls',''),
'C20':(P,S,'voluntary_switch_next tick_clears_postponed',''),
'C21':(P,'Pico.TaskInit.','task_init_inside task_init_stalls_iff task_init_small_line',''),
'C22':(P,S,'watermarks_tight',''),
'C23':(P,'Pico.Delay.','delay_sec_exact delay_msec_rounds_up delay_usec_rounds_up delay_overflows',''),
'C24':(P,'Pico.Delay.','delay_elapsed_iff delay_elapsed_promoted',''),
'C33':(P,L,'lite_tick_runs_most_urgent lite_never_stalls lite_voluntary_switch',''),
'C34':(P,L,'lite_sleep_lasts_exactly lite_killed_never_runs',''),
'C35':(Q,L,'lite_get_next_prio lite_get_last_prio_exact lite_get_last_prio_largest_partial lite_get_last_prio_wrong lite_add_all_accepts','get_last never examines priority 0 and does not stall when nothing is free: exact result and counterexamples proved'),
'C36':(P,L,'lite_same_as_full lite_accepts_full_accepts',''),
'C25':(P,M,'smp_no_double_run smp_busy_iff_running',''),
'C26':(P,M,'smp_affinity',''),
'C27':(P,M,'smp_tick_per_round smp_syscall_keeps_tick',''),
'C28':(P,M,'smp_sleep_lasts_exactly',''),
'C29':(P,M,'smp_tick_runs_most_urgent smp_voluntary_switch',''),
'C30':(P,M,'smp_tick_never_stalls smp_syscall_never_stalls smp_step_never_undefined smp_idle_syscall_stalls',''),
'C31':(Q,M,'smp_postponed_runs_again_partial smp_postpone_lost','the postpone flag is one flag for all cores, so the other core can consume it; proved for a single core sequence, counterexample history proved'),
'C32':(P,M,'smp_killed_never_runs',''),
'C39':(P,X,'mutex_exclusive mutex_overflow','below the range of the nesting counter; counterexample beyond it'),
'C40':(P,X,'mutex_reentrant mutex_free_iff',''),
'C41':(P,X,'mutex_unlock_guard mutex_unlock_completes',''),
'C42':(P,X,'cond_signal_at_most_one cond_no_spurious cond_wait_owns cond_wait_leaves cond_signal_sticky cond_wait_stall cond_signals_merge','waits called with the mutex held (documented precondition)'),
'C43':(P,X,'cond_broadcast_all cond_broadcast_stays cond_broadcast_overwritten cond_broadcast_unlocked','waits and broadcasts made with the mutex held; the counterexamples show what happens otherwise'),
'C37':(P,'Pico.Ftx.','futex_exclusive futex_not_reentrant futex_attempt_iff futex_unlock_no_stall futex_undisciplined','the last theorem is the counterexample without the discipline'),
'C38':(P,'Pico.Ftx.','futex_lock_attempts futex_lock_holds Pico.Mtx.mutex_lock_attempts Pico.Mtx.mutex_lock_holds','CONFIG_DEADLOCK_COUNT + 1 attempts, not CONFIG_DEADLOCK_COUNT'),
'C44':(P,'Pico.Queue.','queue_is_fifo queue_init_iff queue_of_two_useless','capacity is count - 2'),
'C45':(P,'Pico.QueueC.','queue_conc_no_underflow queue_conc_no_overflow queue_conc_safe queue_conc_loses_value queue_conc_writers_clash queue_conc_reader_clash','the documented thread safety fails: three counterexample executions'),
'C46':(P,'Pico.Fifo.','fifo_init_iff fifo_in_order fifo_empty_only_if fifo_refused_only_if fifo_capacity fifo_in_bounds fifo_of_two_useless','sequentially consistent accesses in program order'),
'C47':(P,S,'scheduler_refines_spec scheduler_refines_spec_strict','the out-of-bounds write of picoRTOS_start (two unused slots) is taken as harmless in the first theorem; the second has no such caveat'),
'C48':(P,M,'smp_refines_spec smp_refines_spec_strict','events happen on existing cores; the out-of-bounds write of picoRTOS_start (two unused slots) is taken as harmless in the first theorem; the second has no such caveat'),
'C49':(P,M,'smp_add_task_accepts smp_add_task_any smp_get_tick',''),
'C50':(Q,M,'smp_self_pinned_partial smp_self_migrates_wrong smp_running_check_stalls','proved for tasks pinned to one core; counterexamples proved for the others'),
'C51':(P,M,'smp_sleep_zero smp_sleep_until_on_time smp_sleep_until_no_drift smp_sleep_until_late smp_resumed_where_suspended smp_resumed_with_selected smp_stack_overflow_stalls smp_task_constant smp_sleep_until_zero_period_stalls',''),
'C52':(Q,M,'smp_get_next_prio_exact smp_get_next_prio_smallest_partial smp_get_next_prio_wrong smp_get_last_prio_exact smp_get_last_prio_largest_partial smp_get_last_prio_wrong','same defect as C15/C16: exact result, documented result under an extra hypothesis, counterexamples'),
'C53':(Q,'Pico.Arch.','cas_armv7 cas_armv7_effective cas_ppc cas_ppc_effective cas_mips_partial cas_mips_effective tas_mips_wrong tas_mips_two_owners cas_mips_not_correct cas_rv32imac_inverted tas_rv32imac_wrong cas_rv32imac_not_correct cas_masked cas_masked_effective cas_8051 cas_8051_effective cas_masked_enables cas_llsc_keeps_mask cas_hcs08_masks cas_hcs08_wrong tas_masked tas_c28x Pico.Arch.Lock.cas_lock_ok Pico.Arch.Lock.cas_lock_effective Pico.Arch.Lock.cas_lock_loses_store Pico.Arch.Lock.cas_lock_spurious','proved for armv7-m/armv7e-m, e200z4/e200z7, avr, stm8, armv6-m, rv32ec, pthread and win32 (as far as arch_suspend holds there, see C63), 8051, c28x, rp2040; false (counterexamples and exact theorems) for mips with old = 0, rv32imac, hcs08'),
'C54':(Q,'Pico.Ctx.','switch_invisible switch_possible RiscV.imac_sound RiscV.ec_sound Mips.mips_sound_partial Mips.s6_lost Mips.mips_not_sound Mips.at_lost Ppc.ppc_sound Ppc.ppc_reservation_lost Ppc.ppc_reservation_kept Ppc.ppc_reservation_cleared Ppc.ppc_not_sound Arm.arm_sound Arm.arm_enter_cok Arm.arm_leave_ok Pico.Ctx8.Avr.avr_sound Pico.Ctx8.Stm8.stm8_sound Pico.Ctx8.Hcs08.hcs08_sound Pico.Ctx51.mcs51_sound_partial Pico.Ctx51.mcs51_ret Pico.Ctx51.mcs51_late_save Pico.Ctx51.mcs51_syscall_is_switch Pico.Ctx51.mcs51_bp_wrong Pico.C28x.c28x_sound Pico.C28x.c28x_below Pico.C28x.c28x_fpu_partial Pico.C28x.c28x_fpu_wrong','proved for rv32imac, rv32ec, avr, stm8, hcs08, armv6-m, armv7-m, armv7e-m (with FPU) and powerpc cores whose sthcx. checks its address (counterexample for the others); mips loses two registers (counterexample), proved for the others; 8051: proved for everything but the frame pointer of the compiler, which is not saved (counterexample); c28x: proved without floating-point unit, with one the halves of its registers are exchanged (counterexample)'),
'C55':(Q,'Pico.Ctx.','RiscV.imac_first RiscV.ec_first RiscV.imac_start RiscV.ec_start Mips.mips_first Mips.mips_start Ppc.ppc_first Ppc.ppc_start Arm.arm_first Arm.arm_start Arm.arm_start_pwm Pico.Ctx8.Avr.avr_first Pico.Ctx8.Avr.avr_first_fits Pico.Ctx8.Avr.avr_start Pico.Ctx8.Stm8.stm8_first Pico.Ctx8.Stm8.stm8_start Pico.Ctx8.Hcs08.hcs08_first Pico.Ctx8.Hcs08.hcs08_first_fits Pico.Ctx8.Hcs08.hcs08_start Pico.Host.Win.win32_entry_partial Pico.Host.Win.win32_entry_wrong Pico.Ctx51.mcs51_first_partial Pico.Ctx51.mcs51_first_wrong Pico.Ctx51.mcs51_first_fits Pico.Ctx51.mcs51_start Pico.C28x.c28x_first Pico.C28x.c28x_first_fits Pico.C28x.c28x_first_odd_wrong','proved on c28x for even stack addresses, refuted for odd ones; refuted on win32, where every task runs the function prepared last; proved on rv32imac, avr, stm8, hcs08, rv32ec, mips, powerpc, armv6-m (rp2040 included), armv7-m, armv7e-m (where FPSCR of a new task is whatever its stack held); 8051: proved if r5 and r6 hold the address passed in dptr (wrong otherwise), and but for the third byte of the argument, dropped'),
'C56':(Q,'Pico.Ctx.','RiscV.imac_syscall_args RiscV.ec_syscall_args RiscV.imac_interrupt_enable RiscV.ec_interrupt_enable Mips.mips_syscall_args Mips.mips_interrupt_enable Ppc.ppc_syscall_args Arm.arm_syscall_args Arm.arm_interrupt_enable Pico.Ctx8.Avr.avr_syscall_args Pico.Ctx8.Avr.avr_interrupt_enable Pico.Ctx8.Stm8.stm8_syscall_args_partial Pico.Ctx8.Stm8.stm8_syscall_priv Pico.Ctx8.Stm8.stm8_priv_lost Pico.Ctx8.Stm8.stm8_interrupt_enable Pico.Ctx8.Hcs08.hcs08_syscall_args Pico.Ctx51.mcs51_syscall_args Pico.C28x.c28x_syscall_args Pico.C28x.c28x_interrupt_enable','proved for rv32imac, avr, rv32ec, mips, powerpc, arm, hcs08; on stm8 the second argument is lost (counterexample), proved for the first; proved on 8051, and on c28x for an even stack pointer'),
'C57':(Q,'Pico.Ctx.','RiscV.imac_isr_partial RiscV.ec_isr_partial RiscV.imac_isr_wrong RiscV.ec_isr_wrong RiscV.imac_isr_return RiscV.ec_isr_return Mips.mips_isr Ppc.ppc_isr Ppc.ppc_isr_resumes Arm.arm_isr Arm.arm_isr_resumes Pico.Ctx8.Avr.avr_isr Pico.Ctx8.Avr.avr_isr_r1 Pico.Ctx8.Avr.avr_isr_resumes Pico.Ctx8.Stm8.stm8_isr Pico.Ctx8.Stm8.stm8_isr_resumes Pico.Ctx8.Hcs08.hcs08_isr Pico.Ctx8.Hcs08.hcs08_isr_resumes Pico.IsrTab.c28x_isr_wrong Pico.IsrTab.c28x_isr_outside Pico.IsrTab.c28x_isr_lost Pico.Ctx51.mcs51_isr Pico.Ctx51.mcs51_entry Pico.Ctx51.mcs51_isr_resumes Pico.C28x.c28x_isr_resumes','proved on powerpc, arm, stm8, hcs08 and avr (where the function is entered with r1 of the task, which C takes for zero); the dispatch is right on mips and for interrupt 0 only on RISC-V; the return is wrong on those three; c28x runs the function of irq + 32; proved on 8051 but for the third byte of the argument, always 0'),
'C58':(Q,'Pico.Ctx.','RiscV.tick_period_partial RiscV.tick_period_wrong Mips.mips_tick_period Mips.mips_first_tick Pico.Tick.stc_tick_time Pico.Tick.stc_right_partial Pico.Tick.stc_drifts Pico.Tick.stc_late_forever Pico.Tick.stc_wrong','mips proved; rv32imac unless the low word of the comparator is 0 (counterexample); stc12 (software reload) only if the handler reloads exactly 84 cycles after the overflow, otherwise it drifts'),
'C59':(Q,'Pico.Intc.','Nvic.enable_ok Nvic.enable6_ok Nvic.disable_no_effect Nvic.disable_wrong Nvic.disable6_wrong Pfic.enable_ok Pfic.disable_no_effect Pfic.disable_wrong Eclic.enable_ok Eclic.disable_ok Pic32.disable_ok Pic32.enable_ok_partial Pic32.enable_wrong Pie.enable_ok_partial Pie.disable_ok_partial Pie.low_wrong Siul2.enable_ok Siul2.disable_ok Siul2.smp_enable_ok_partial Siul2.smp_enable_wrong Siul2.smp_disable_ok Siu.enable_ok Siu.disable_ok Siu.smp_enable_ok Siu.smp_disable_ok_partial Siu.smp_disable_wrong Siu.smp_disable_enables Mcs51.n76e003_ok Mcs51.ch552_ok Mcs51.stc12_ok_partial Mcs51.cy7c_ok_partial Pico.C28x.c28x_groups_masked','full on rv32imac, e200 (one core), n76e003, ch552; the rest is false and shown false: no disable on Cortex-M and rv32ec, wrong priority field on pic32mz, wrong offset on c28x, SMP masks on e200'),
'C60':(Q,'Pico.Cache.','flush_ok invalidate_ok flush_aligned flush_aligned_end flush_task_stack flush_wrong invalidate_wrong Cmcc.invalidate_wrong Pico.Ctx.Mips.invalidate_keeps Pico.Ctx.Mips.writeback_ksp Pico.Ctx.Mips.flush_breaks_kernel_stack','proved for the ranges whose lines the code counts right (aligned start or end included; the stacks the SMP scheduler flushes among them); refuted for every other range, for atsame5x, and for the mips kernel stack pointer'),
'C61':(Q,'Pico.Counter.','free_exact ns_exact ns_bounded down_since down_not_exact down_within_one down_bounded rp_since rp_not_exact rp_bounded avr_since avr_not_exact avr_bounded stk_since stk_not_exact stk_not_bounded','exact on mips, rv32imac, e200 STM and pthread; on the others the exact value returned is given and the claim refuted'),
'C62':(Q,'Pico.IsrTab.','arm_table mips_table riscv_table ppc_table stm8_table hcs08_table mcs51_table mcs51_look c28x_table avr_table_partial avr_table_overrun avr_table_wrong c28x_release_overrun','proved on arm, mips, riscv, powerpc, stm8, hcs08, 8051 and c28x (debug); false on avr, where the table is one byte per 4-byte entry, and for out-of-range numbers of c28x in a release build'),
'C63':(Q,'Pico.Mask.','mcs51_ok avr_ok mips_ok ppc_ok c28x_ok riscv_ok arm_ok arm7e_ok stm8_ok_partial stm8_boot_wrong hcs08_wrong hcs08_not_critical hcs08_stuck no_nesting arm7e_time_stops win32_partial win32_wrong Pico.Host.Pth.pthread_critical_section Pico.Arch.cas_masked_enables Pico.Arch.cas_llsc_keeps_mask Pico.Arch.cas_hcs08_masks','proved on 8051, avr, mips, powerpc, c28x, riscv, arm; refuted on hcs08, at boot on stm8, on win32 for a tick already under way, on pthread for a tick another thread receives; critical sections do not nest'),
'C64':(Q,'Pico.Spin.','smp_exclusive_debug smp_exclusive_partial smp_both_inside smp_stolen smp_gives_up_late','proved for debug builds, and for release builds as long as no core gives up; refuted for release builds'),
'C65':(Q,'Pico.Tick.','systick_right systick_wrong tc0_right tc0_wrong tc0Tiny_right rtc_right mtim1_period mtim1_partial mtim1_wrong mtim1_none hcsRtc_wrong hcsRtc_partial awu_right awu_wrong t2_right t2_wrong t2mcs_right t2mcs_wrong t2n76_right t2n76_wrong wkt_right wide_right stmZ7_partial stmZ7_wrong dec_disabled rpPwm_right rpPwm_wrong itimer_right sleepMs_right','per port: proved in the range of frequencies where it holds, refuted outside; hcs08 RTC refuted for every frequency'),
'C66':(Q,'Pico.Host.','Win.win32_one_partial Win.win32_kept_task_dies Win.win32_two_run Win.win32_none_runs Pth.pthread_one_partial Pth.pthread_main_two_run Pth.pthread_waiter_wrong_task Pth.pthread_kept_task_stops Pth.pthread_lost_wakeup Pth.pthread_never_starts','false of both host ports, shown by runs for arbitrary tasks; proved under the conditions the ports rely on'),
'C67':(Q,'Pico.Drv.Tx.','tx_in_order tx_progress tx_no_overrun tx_said_accepted tx_isr_quiet n76_said_partial n76_said_wrong n76_full avr_said_partial avr_said_wrong','all but the returned value on the four drivers; the returned value on atsamx7x and 8051; refuted on n76e003 (full fifo) and avr (buffer longer than size - 2), proved there when everything fits'),
'C68':(P,'Pico.Drv.Rx.','rx_in_order rx_stored rx_no_loss rx_short rx_returns',''),
'C69':(Q,'Pico.Spi.','spi_wire spi_complete spi_data spi_lost_hangs single_never_loses limited_never_loses plain_never_loses_partial plain_loses lgt_loses half_second_byte sam8_skips sam8_overflow single_uninit_stuck','wire and buffer contents on every driver whose stores match its frames; no loss on the drivers with one frame under way, with a counted limit, or with WDRBT, and on the others if the receiver is deeper than the transmitter; refuted otherwise (an answer is lost when the caller is preempted, then the transfer never ends), for 16-bit frames of pic32mx and renesas_ra4 (one byte stored), for 8-bit frames of atsamx7x and sam3x (every other byte, writes past the buffer), and for gd32vf103/renesas_ra4 contexts whose balance is not 0 at first'),
'C70':(Q,'Pico.FlashExt.','reset_sends erase_right erase_returns erase_refuses erase_protected write_exact write_returns write_right_partial write_short_wrong write_end_refused read_wrong read_end_refused probe25_right probe26_right_partial probe26_wrong probe26_bytewise_wrong unlock26_wrong lock_wrong quad_right quad_returns','erase, quad_enable and the probe of s25fl1 proved; write proved for data of a page or more, refuted for less (the rest of the page is programmed with the contents of a static buffer); read refuted (nothing is read); the probe of sst26vf proved for messages sent at once, refuted when they are split; the last bytes of the memory refused'),
"C71":(Q,"Pico.Can.","mcan_bitrate mcan_bitrate_iff flexcan_bitrate flexcan_bitrate_iff sam3x_bitrate sam3x_bitrate_iff pic32mx_bitrate dcan_bitrate_partial dcan_presc_iff dcan_wrong dcan_125k dcan_sample gd32_always_wrong","proved (with the exact success condition) for M_CAN, FlexCAN, SAM3X, PIC32MX (staging). TI DCAN: BRPE is given (brp-1) >> 5 instead of >> 6, right when the prescaler is at most 32 (f < 264 b), always wrong for 800 b < f < 7944 b (125 kbit/s at 200 MHz gives 69.4 kbit/s), and samples 2 to 4 quanta early (dcan_sample). GD32VF103 (staging): the prescaler is off by one, always wrong"),
"C72":(Q,"Pico.Can.","Mcan.mcan_write Flexcan.flexcan_write Dcan.dcan_write Sam3x.sam3x_write_partial Sam3x.busId_iff Sam3x.sam3x_one_byte Sam3x.sam3x_pair Flexcan.flexcan_reorder","proved for M_CAN, FlexCAN and TI DCAN (11-bit identifiers only, the driver refuses the others). SAM3X: format, length and mailbox proved, but the bytes of each word go out in reverse order (a 1-byte frame always carries 0) and 29-bit identifiers from 2^14 up are scrambled (busId_iff). flexcan_reorder: frames of one identifier do not leave in the order they were written"),
"C73":(Q,"Pico.Can.","Mcan.mcan_read_partial Mcan.mcan_read_empty Mcan.mcan_arrive Mcan.mcan_read_overflow Mcan.mcan_read_full Mcan.mcan_stuck Flexcan.flexcan_read_partial Flexcan.flexcan_read_empty Flexcan.flexcan_read_zero Flexcan.flexcan_read_overflow Sam3x.sam3x_read_partial Sam3x.sam3x_read_empty Dcan.dcan_read_partial Dcan.dcan_read_empty Dcan.dcan_cells Dcan.dcan_read_wrong_id","partial: right frame for frames that fit in the buffer; false in general, with proofs: M_CAN, FlexCAN and DCAN write past a buffer smaller than the frame; M_CAN reports -EAGAIN for ever once 64 frames wait (mcan_stuck); FlexCAN loses frames without data; SAM3X gives the bytes of a word in reverse; DCAN returns the identifier of the last can_accept and two bytes in cells 1, 2, 5, 6"),
"C74":(Q,"Pico.Can.","Mcan.mcan_accept Flexcan.flexcan_accept_partial Flexcan.flexcan_any_refused Sam3x.sam3x_accept_partial Sam3x.sam3x_ext_refused Dcan.dcan_accept_partial Dcan.dcan_any_refused","proved for M_CAN. FlexCAN and DCAN ignore the masks (individual masks never enabled, mask never transferred): exactly the identifiers given are received, CAN_ACCEPT_ANY included. SAM3X: right for 11-bit frames, 29-bit identifiers and masks are scrambled"),
"C75":(Q,"Pico.FlashInt.","Same5x.same5x_write_partial Same5x.same5x_write_completes Same5x.same5x_lost Same5x.same5x_erase_partial Same5x.same5x_erase_sector Same5x.same5x_erase_wide Gd32.gd32_write_partial Gd32.gd32_silent Eefc.eefc_erase_iff Eefc.eefc_write_page0 Eefc.eefc_lock","same5x: right except when a whole page follows an unaligned beginning (page - 16 bytes reported and never written), and an erase takes 16 sectors. gd32: right in an erased area, errors never looked at. eefc: wrong page in erase (except 0) and write (always page 0, returns 0); lock/unlock right"),
"C76":(P,"Pico.Rng.","rng_read_spec rng_read_split rng_period rng_nonzero rng_every rng_seed_zero","for non-zero seeds; seed 0 is accepted and gives only zeros (rng_seed_zero)"),
"C77":(Q,"Pico.EepromAvr.","avr_eeprom_partial avr_read avr_lost avr_lost_any avr_erase_lost avr_irq_lost","right when the hardware is idle at each write; a write while another is under way is reported done and lost (&& where || is meant)"),
"C78":(Q,"Pico.Gpio.","gpio_write_partial gpio_write_dir stm8_write gpio_toggle_partial renesas_toggle_inverted gpio_read_spec gpio_write_read gpio_read_effect gpio_setup_spec gpio_tasks_partial gpio_lost gpio_wrong","write: all drivers except stm8 (clears the other pins); toggle: all except renesas inverted (does nothing); tasks: the drivers with set/clear registers; with the read-modify-write ones updates are lost (gpio_lost)"),
"C79":(Q,"Pico.TwiAvr.","twi_avr_partial twi_avr_ends avr_nack avr_nack_any avr_nack_last avr_read_stop avr_read_hangs","right, and ends, when data bytes are acknowledged; a data byte not acknowledged is counted as written (avr_nack*); reads always end with STOP (avr_read_stop) and never end without TWI_F_S (avr_read_hangs)"),
"C80":(Q,"Pico.TwiDw.","twi_dw_partial twi_dw_drain dw_lost dw_absent","right when the device acknowledges and the activity flag is prompt; a message to an absent device that fits in the FIFO is reported written, the error goes to the next one (dw_absent); with a late activity flag a message is lost (dw_lost); TWI_F_S and TWI_F_P are ignored"),
"C81":(Q,"Pico.Pwm.","sam_period tc_period avr_period_fast avr_select avr_phase_wrong avr_256_wrong avr_top_wrong avr_top_kept gd32_wrong emios_period emios_refuses pic32_best renesas_best pic32_period renesas_period rp2040_period rp2040_wrong same5x_period stm_ends stm32_period stm32_long stm32_wrong epwm_period tinyavr_period ftm_period ftm_wrong n76_period ch552_period ch552_wrong duty_shift duty_shift_zero duty_shift_full duty_shift_mono duty_shift_overflow duty_tc duty_div duty_div_overflow duty_ch552 duty_pic32","exact conditions per driver: the frequency is truncated to MHz and overflows are not checked; avr phase-correct waveforms last twice as long, CLKIO_256 is unknown to the driver, OCnA overwrites TOP; gd32vf103 divides by one too many; rp2040 forgets the divider; stm32h7 refuses more than 65 ms; mc9s08 loses the prescaler; 65535 is one count short of 100 %"),
"C82":(Q,"Pico.UartRate.","within_of rate_iff sam_rate usart_rate avr_rate pic32_rate tinyavr_rate mc9_rate renesas_rate renesas_none stm32_rate stm32_none lin_rate gd32_rate gd32_coarse gd32_wrong gd32_trap pl011_eq pl011_right pl011_wrong pl011_range sercom_eq sercom_rate sercom_slow sercom_wrong mcs51_rate mcs51i_rate n76t1_rate n76t3_rate n76u1_wrong n76_accepts","exact conditions per driver; no driver but renesas, stm32 (slow side) and sercom refuses a rate its divider cannot produce; pl011 writes hundredths into a 1/64 field; gd32vf103 divides the remainder by the quotient and traps above F/16; linflexd rounds 15.5/16 up to 0/16; sercom loses up to 8 % at 9600 from 48 MHz; n76e003 UART1 runs at half the rate"),
"C83":(Q,"Pico.UartFmt.","pl011_fmt pl011_refuses pl011_baud pl011_baud_lost sercom_fmt sercom_refuses sercom_refused_off sercom_msb sam_fmt sam_right sam_wrong usart_fmt usart_ignore_refused avr_fmt avr_refuses tiny_fmt tiny_refuses gd_fmt gd_refuses gd_right gd_wrong stm_fmt stm_refuses_iff stm_refused_off stm_wrong lin_fmt lin_refuses lin_wrong pic_fmt pic_right ra_fmt ra_refuses mc_even mc_fmt","holds in full for avr, tinyavr, renesas; per-driver conditions and refutations for the others (see DESIGN)"),
"C84":(Q,"Pico.UartPoll.","write_all writes_all write_progress fifo_writes usart_writes fifo_progress reads_all read_len pl011_zero overrun_forever overrun_reached tiny_stuck tiny_ok write51_all init51_ok write76_all resume76_all n76_other lin_write lin_again_sent lin_twice lin_rx_lost lin_init_ok","writing holds for all drivers but linflexd and n76e003 (refuted as documented); reading holds, and goes on after an overrun or a framing error, but for renesas, pic32mx and tinyavr"),
"C85":(Q,"Pico.Wd.","avr_watchdog_partial avr_interrupted tinyavr_watchdog tinyavr_window same5x_watchdog_partial same5x_again rp2040_watchdog gd32_watchdog_partial gd32_short stm32_watchdog_partial stm32_32k_partial stm32_long atmel_watchdog_partial atmel_32000 atmel_late atmel_stopped sam3x_never ti_watchdog_partial ti_before ti_prescaler ti_stop ti_stopped_first pic_watchdog_partial pic_long pic_fuse pic_window_stays pic_deaf","tinyavr and rp2040 as asked; avr if no interrupt hits the timed sequences; same5x for a first set-up; gd32vf103, stm32h7xx, atmel_wdt, ti_f28x only in the ranges given, refuted outside; sam3x never resets; pic32mx up to 32768 ms and only if RUNDIV and the key can be written by 32-bit writes, refuted otherwise"),
"C86":(Q,"Pico.Adc.","n76_kept perChan_good perChan_progress sam3x_stale sam3x_own renesas_good renesas_progress stm32_own_partial stm32_single_partial stm32_twice avr_turns_partial avr_progress tinyavr_turns_partial tinyavr_progress same5x_turns_partial same5x_progress mc9s08_turns_partial mc9s08_progress n76_turns_partial n76_progress rp2040_turns_partial rp2040_progress one_other one_other2 same5x_stuck gd32_once avrFree_wrong eqadc_first","full for nxp_sar, atmel_afec, pic32mx, ti_type4, renesas_ra4; for one-register blocks only while the objects take turns, refuted otherwise; the rest refuted"),
"C87":(Q,"Pico.AdcScale.","scale_ok scale_some phys_unique scale_mono default_raw default_32 setup_last half_negative divider_zero mc9s08_default mV_overflow ti_units ti_trigger ti_values ti_count other_count","as asked when the arithmetic fits an int; refuted: upper half of 16-bit results negative, divider 0 accepted, 16-bit overflow in mV, count returned by ti_type4"),
"C88":(Q,"Pico.AdcSetup.","stm_pcsel stm_seq stm_accepts stm_smp_partial stm_smp_wrong gd_seq_wrong af_seq af_accepts af_clock avr_mux_partial tiny_clock tiny_fast ra_scan sar_scan pic_mode_wrong pic_mode_other pic_trig pic_trig_wrong","sequences as asked on stm32h7xx, atmel_afec, renesas_ra4, nxp_sar; refuted where listed in DESIGN.md"),
"C89":(Q,"Pico.SpiSetup.","gd_setup gd_accepts pl_setup pl_accepts pl_refuses pl_fast stm_setup_partial stm_accepts stm_slow dspi_setup_partial dspi_fast dspi_accepts pic_setup_partial pic_accepts pic_fast pic_slow ra_setup ra_accepts mc_setup mc_accepts n76_setup_partial n76_accepts n76_slow ch_setup_partial ch_accepts ch_slow tiny_setup_partial tiny_accepts avr_setup_partial avr_accepts avr_slow avr_refuses ser_setup_partial ser_accepts ser_clk_wrong sam_setup_partial sam_accepts sam_rate_wrong qspi_setup_partial qspi_accepts qspi_rate_wrong ti_setup_partial ti_rate_wrong","full for gd32vf103, arm_pl022, renesas_ra4, mc9s08ptxx, tinyavr; in the ranges stated for the others, refuted outside"),
"C90":(Q,"Pico.SpiSetup.","gd_setup pl_setup stm_setup_partial stm_cs dspi_setup_partial dspi_clobber dspi_cs pic_setup_partial pic_clk_wrong ra_setup ra_cs mc_setup n76_setup_partial n76_frame ch_setup_partial ch_frame tiny_setup_partial tiny_clk_wrong tiny_frame avr_setup_partial avr_frame ser_setup_partial ser_clk0 ser_clk_wrong ser_frame sam_setup_partial sam_rate_wrong sam_cs qspi_setup_partial qspi_rate_wrong ti_setup_partial ti_clk_wrong ti_mode_alone ti_clk_alone","full for gd32vf103, arm_pl022, stm32h7xx, renesas_ra4, mc9s08ptxx; the others with the restrictions stated, refuted otherwise"),
"C91":(Q,"Pico.Dma.","wanted_copies wanted_fills sample_copies Rp.setup_moves Rp.xfer_moves Rp.xfer_restarts Rp.restart_sample Rp.moves_sample Rp.accepted_iff Gd.accepted_iff Gd.setup_moves Gd.word_reserved Gd.truncated Gd.moves_sample St.setup_moves St.periph_step_four St.sizes_not_refused St.moves_sample Sa.setup_moves Sa.remainder_shifts Sa.moves_sample Ti.setup_moves_partial Ti.empty_moves Ti.moves_sample Ed.xfer_moves Ed.setup_moves Ed.remainder_nothing Ed.sample_fits Ed.moves_sample","full for rp2040 set-ups and for the sizes and counts stated elsewhere; refuted outside"),
"C92":(Q,"Pico.Dma.","Rp.setup_moves Rp.xfer_moves Rp.setup_after_xfer_unpaced Rp.init_idle Gd.setup_moves Gd.xfer_never_starts St.setup_moves St.xfer_never_starts St.circ_lost Sa.setup_moves Sa.xfer_one_unit Sa.xfer_single Ti.setup_moves_partial Ti.xfer_never_starts Ed.request_moves_all Ed.request_again Ed.xfer_moves Ed.xfer_busy","set-ups as asked for 5 drivers; dma_xfer as asked for rp2040 and nxp_edma; the rest refuted"),
"C93":(Q,"Pico.Dma.","Rp.setup_done Rp.xfer_done Rp.done_idle Gd.setup_done St.setup_done St.empty_never_done Sa.setup_done Ti.done_kills Ti.done_after_first Ed.done_too_early","full for rp2040, gd32vf103, same5x; stm32h7xx except empty transfers; refuted for ti_f28x and nxp_edma"),
"C94":(Q,"Pico.Mux.","Drv.run_frame Drv.last_wins Stm.serves Stm.keeps Cnf.gd_serves Cnf.gd_speed Cnf.f10_serves Cnf.ch_serves Rp.serves Rp.override_does Rp.drive_does Rp.pull_lost Siul2.others Siul2.analog_does Siul2.pull_does Siul2.output_does_partial Siul2.output_residue Siul2.input_does_partial Siul2.input_residue Siul2.refuses Siu.serves Siu.keeps Siu.muxsel_does Siu.muxsel_refuses Pic.serves Pic.keeps Pio.serves Pio.keeps Pio.serves3 Avr.serves Avr.output_level Avr.input_pull Mc.serves Mc.keeps Stm8.serves Tiny.serves Tiny.keeps Tiny.alt_does Sa.func_does Sa.others Sa.refuses Sa.gpio_does_partial Sa.gpio_keeps_func Sa.gpio_input_off Sa.pulls_alike Ti.serves Ti.keeps Ti.qsel_does Ra.serves Ra.other_ports Ra.protected_after Ra.pull_lost Two.mode_does Two.refuses Two.port2_nothing","full for stm32, gd32vf103, ch32, nxp_siu, pic32mx, atmel pio, avr, tinyavr, mc9s08, stm8, ti_f28x; the others with the restrictions stated, refuted otherwise"),
"C95":(Q,"Pico.Clock.","Rp.freq_partial Rp.sample Rp.accepts Rp.pll_right Rp.pll_133 Rp.pll_overflow Rp.rtc_wrong Rp.init_off Gd.buses Gd.freq_partial Gd.pll_found Gd.pll_partial Gd.sample_108 Gd.pll_wrong Gd.irc_wrong Gd.adc_wrong Tiny.freq_right Tiny.sample Tiny.locked_wrong F28.freq_partial F28.sample F28.div3_wrong F28.intosc_stale Stm8.freq_right Stm8.sample Stm8.hse_never Ra4.freq_partial Ra4.pclk_wrong Ra4.pclkd_wrong Ra4.iwdt_wrong Ra4.mosc_stopped Pmc.init_good Pmc.freq_partial Pmc.pck_right Pmc.sample Pmc.upll_stale H7.freq_partial H7.sample H7.divm_rounds H7.hse_stale H7.csi_off H7.vco_low S5.freq_partial S5.sample S5.dpll_wrong S5.div_wrong S5.stale S5.ref_ignored S5.div_zero Pic.freq_partial Pic.sample Pic.pending Pic.early_fails Pic.pll_rounds Pic.pb_right Pic.pb_stale Pic.pb_zero Pic.pb_128 Sam.freq_partial Sam.mck_real Sam.sample Sam.rounds Sam.no_wait Sam.no_wait_sample Sam.periph_stale Nu.freq_partial Nu.sample Nu.trim_wrong Nu.trim_sample Nu.hirc24_stays Nu.hirc_off Cy.init_sets Cy.never_told Mpc.freq_partial Mpc.sample Mpc.s40_wrong Mpc.s40_sample Mpc.firc_stays Mpc.firc_sample Mpc.pll_wraps Mpc.disable_undef Mpc.disable_sample Siu.freq_partial Siu.usual_exact Siu.sample Siu.rounds Siu.locked_fails Siu.unlocked_passes Siu.phi1_four Ch.freq_partial Ch.sample Ch.iwdg_wrong Ch5.record_partial Ch5.sample Ch5.never_told Ch5.xt_wrong Ch5.int_stays Lg.freq_right Lg.sample Lg.ps_ignored Mc9.fei_makes Mc9.fei_partial Mc9.fbi_partial Mc9.sample Mc9.fei_steps Mc9.fee_wrong Mc9.fee_sample Mc9.fbe_stale Stc.freq_partial Stc.brt_wrong Stc.sample F1.freq_partial F1.sample F1.apb_wrong F1.adc_wrong F1.tim_wrong F1.usb_wrong F1.pll_stays F4.freq_partial F4.sample F4.apb_wrong F4.usb_wrong F4.rounds F4.pll_stays F4.slow_undef L4.freq_partial L4.sample L4.apb_wrong L4.msi_stale L4.hsi_off L4.rounds L4.pll_stays L4.misses L4.slow_undef","full for tinyavr (from an unlocked controller), stm8 and lgt8fx8p; the others under the conditions stated, refuted outside them"),
"C96":(Q,"Pico.Clock.","Rp.enable_does Rp.disable_does Rp.gates_accepted Gd.enable_does Gd.disable_does Gd.gates_accepted F28.enable_does F28.disable_does Stm8.enable_does Stm8.disable_does Ra4.start_does Ra4.stop_does Ra4.gates_accepted Pmc.enable_partial Pmc.disable_partial Pmc.pid_wrong Pmc.pck_runs H7.enable_does H7.disable_does H7.gates_accepted H7.sai4_wrong H7.ker_does S5.enable_does S5.disable_does S5.gates_accepted S5.channel_does S5.channel_stops Pic.pb_does Pic.pb_stops Pic.pb_accepted Sam.enable_partial Sam.disable_partial Sam.gates_accepted Sam.enable_nothing Mpc.run_does Mpc.lp_does Mpc.pc_does Mpc.gates_accepted Mpc.pc_negative Ch.enable_does Ch.disable_does Ch.gates_accepted F1.enable_partial F1.disable_partial F1.gates_accepted F1.sdio_wrong F4.enable_does F4.disable_does F4.gates_accepted L4.enable_does L4.disable_does L4.gates_accepted","full for rp2040, gd32vf103, ti_f28x, stm8, renesas_ra4, same5x, pic32mx, mpc574xx, ch32v003, stm32f401x, stm32l4x; atmel_pmc for identifiers under 64, stm32h7xx but SAI4, stm32f10xxx but SDIO, refuted there"),
"C97":(P,"Pico.Soft.","mul_right udiv_right umod_right div_right mod_right returns_unique sample","__mulsi3, __divsi3, __udivsi3, __modsi3, __umodsi3 for all operands"),
"C98":(Q,"Pico.","Startup.boot_right_partial Startup.sample Startup.sbss_left Startup.sbss_address Startup.sbss_sample Startup8.boot_right Startup8.sample_placed Startup8.boots","full but for small zero data, which only the PIC32's startup clears: refuted for RISC-V and PowerPC"),
"C99":(Q,"Pico.TwiRate.","avr_rate avr_refuses renesas_rate renesas_accepts dw_rate_partial dw_low sercom_high_partial sercom_high_fast sercom_wrong sercom_sample sam_rate_partial sam_fast sam_faster sam_refused sam_sample ti_rate_partial ti_module ti_low ti_sample gd_rate_partial gd_fast gd_sample gd_clk gd_clk_stale mc9_refused mc9_wrong mc9_sample n76_rate_partial n76_fast nxp_rate_partial nxp_slow nxp_sample stm_ends stm_rate_partial stm_low stm_accepts stm_sample pic32_rate_partial pic32_near_partial pic32_fast pic32_slow pic32_sample","full for AVR and RA4; the others are proved where true and refuted elsewhere"),
"C100":(Q,"Pico.Fram.","fram_avr_partial fram_avr_call fram_avr_ends fram_sample fram_absent fram_past_end fram_no_stop fram_dw_garbage","full over the AVR TWI driver for ranges inside a chip that answers; refuted outside"),
"C101":(Q,"Pico.Spi1.","avr_faithful ch552_faithful n76_faithful_partial complete ends sample_avr sample_ch552 n76_twice s08_twice s08_twice_quiet Usart.faithful Usart.complete Usart.ends Usart.sample Irq.faithful Irq.complete Irq.ends Irq.select Irq.one_select_partial Irq.split_select Irq.small_never Irq.sample","full for avr (both modes), avr_usart and ch552; n76e003 only without interruption, mc9s08ptxx refuted; the selection of the peer only for messages that fit the FIFO"),
"C102":(Q,"Pico.Ipwm.","edge_iff emios_period_partial tc_period_partial period_answers emios_period_wrong tc_period_wrong highs_mul edges_bounds emios_duty_partial emios_duty_waits emios_duty_wrong tc_duty_partial tc_duty_wrong rp_period_partial rp_period_wrong rp_duty_partial rp_duty_wrong","the conditions are limits of the code, each shown to be needed by a refutation"),
"C103":(P,"Pico.Core1.","passed_right done_idles only_right wrong_if_not_clean ends no_deadlock lost_forever lost_reachable stackOf_eq","the three words must not be 0: a 0 restarts the boot ROM"),
"C104":(Q,"Pico.SpiDma.","wire_seen done_right_partial ends quiet lost_stuck extra_lost long_lost","whole frames and at most 2^w - 1 of them; refuted otherwise (extra_lost, long_lost)"),
"C105":(Q,"Pico.","Sched.watermarks_are_durations Sched.idle_first_sample SMP.smp_measured_against SMP.smp_sample_exact_partial SMP.smp_sample_wrong SMP.watermark_takes Sched.watermark_takes","single core: full (the first sample of the idle task is a whole period); SMP: refuted when another core ticks meanwhile"),
"C106":(P,"Pico.SMP.","smp_start_orders_tasks smp_shared_priority_turns smp_one_turn_at_a_time smp_sharers_not_together smp_idles_though_ready",""),
"C107":(P,"Pico.Noncoh.","stack_current sched_current_any outside_lags outside_current outside_not_current writeback_loses","the lock is a guard (C64); what a pass computes is left open here (C05-C14, C106)"),
"C108":(Q,"Pico.PwmRun.","pwm_right_partial pic32_exact pic32_right_partial pic32_wrong together_exact together_right_partial together_wrong stm32_exact stm32_wrong sam_never_stops sam_start sam_wrong ti_exact ti_wrong pwm_tasks_partial pwm_lost","what is missing is false of the code and refuted; what the bits do is taken from the reference manuals; SYNCBUSY waits are left out"),
"C109":(P,"","Pico.Sched.tick_period_descends Pico.Sched.eligible_is_served Pico.Sched.idle_means_served Pico.Lite.lite_tick_period_descends Pico.Lite.lite_ready_is_served Pico.SMP.smp_waiting_not_passed_over","tasks that become ready because another core ticked may find a core idling until its own tick (SMP)"),
"C110":(Q,"Pico.MtxCache.","exclusive stalled_astray reentrant owner_stays owned_exactly free_again leaks two_owners","holds if tasks do not change cores inside a call (exclusive, stalled_astray, reentrant) and the compare-and-swap drops the line (owned_exactly, free_again); false otherwise (two_owners, leaks); count is not bounded"),
"C111":(Q,"Pico.FtxCache.","exclusive owner_not_stalled dead_keeps stalled_when_moved stalled_when_ignored","exclusion holds always; unlock of the owner holds if it stays on its core while it has the futex (owner_not_stalled), false otherwise"),
"C112":(Q,"Pico.C55.","c55_write c55_write_completes c55_write_uninitialised fits_577x fits_574x c55_erase_partial c55_erase_ends c55_offset_refused c55_offset_wrong c55_lock_partial c55_unlock_partial c55_blankcheck_partial sane_574x sane_577x c55_blankcheck_577x Sam3x.sam3x_init_fails Sam3x.sam3x_never_ends","writing holds; erasing, locking and unlocking hold of block numbers, false of offsets (c55_offset_refused, c55_offset_wrong); state not initialised (c55_write_uninitialised); blankcheck false for 3 blocks of the MPC577x; sam3x unusable (sam3x_init_fails, sam3x_never_ends)"),
"C113":(Q,"Pico.W1.","w1_write w1_write_ends w1_write_error_lost w1_zero_short w1_reset_partial w1_reset_nobody w1_reset_no_pulse w1_reset_no_pulse_reached w1_reset_keeps w1_write_after w1_read_partial w1_read_sticks w1_read_deaf w1_read_echoes","writing holds bit for bit (w1_write, w1_write_ends); its 0 slots are too short; reset holds from a fresh driver; reading is refuted (w1_read_deaf, w1_read_sticks, w1_read_echoes)"),
"C114":(Q,"Pico.Lin.","lin_write_partial lin_write_ends lin_write_mixes lin_write_wrong_id lin_write_or lin_read_master lin_read_ends lin_write_slave lin_read_slave lin_read_slave_repeats lin_rate_partial lin_rate_short lin_rate_10417","lin_read holds (lin_read_master); lin_write holds for a first frame or one with the id and length of those before (lin_write_partial), false otherwise (lin_write_or); rate false where the fraction rounds to 16 (lin_rate_short)"),
"C115":(Q,"Pico.Dmasg.","dmasg_xfer_partial dmasg_xfer_ends dmasg_xfer_busy dmasg_done_early dmasg_xfer_lost dmasg_setup_rounds rounds_same next_same dmasg_wanted_copies dmasg_size_wrong dmasg_offset_cut dmasg_remainder wf_reachable dmasg_setup_serves dmasg_setup_waits dmasg_refused","holds from the moment the engine has picked the channel (dmasg_xfer_partial); false before (dmasg_done_early, dmasg_xfer_lost) and for descriptors the controller cannot do (dmasg_size_wrong, dmasg_offset_cut, dmasg_remainder)"),
"C116":(Q,"Pico.TwiSam.","twi_write_partial twi_write_ends_partial twi_read_one twi_read_one_ends twi_read_one_more twi_read_stale twi_read_lost twi_write_nack twi_write_absent twi_write_one_stuck twi_write_cut twi_write_stop_first twi_read_order twi_nack_gives_up","holds for writes that are taken, with no step of the bus between TWI_CR and TWI_THR (twi_write_partial, twi_write_ends_partial), and for reads of one byte (twi_read_one); false otherwise (the refutations)"),
"C117":(Q,"Pico.TwiF28.","twi_write_partial twi_write_ends_partial twi_write_long busy_again twi_write_absent twi_write_twice twi_read_partial twi_flag_stays twi_read_late twi_read_split reset_quiet","holds for writes of at most 16 bytes that are taken (twi_write_partial, twi_write_ends_partial), and for the first read after a reset of at most 16 bytes with no call during the frame (twi_read_partial); false otherwise (the refutations)"),
"C118":(Q,"Pico.TwiSercom.","twi_write_partial twi_write_ends_partial twi_write_absent twi_dead twi_write_absent_dead twi_write_race twi_read_never","holds for writes that are taken (twi_write_partial, twi_write_ends_partial) and for an absent slave if the NACK is seen in time (twi_write_absent); false for every read (twi_read_never), in a race (twi_write_race), and after a NACK if STOP doesn't clear RXNACK (twi_dead)"),
"C119":(Q,"Pico.TwiPic.","twi_write_partial twi_write_ends_partial twi_write_absent twi_write_stale twi_write_last_nack twi_write_race","holds for writes that are taken when the last acknowledge bit was an ACK (twi_write_partial, twi_write_ends_partial) and for an absent slave then (twi_write_absent); false after a NACK (twi_write_stale), for the last byte (twi_write_last_nack) and in a race (twi_write_race)"),
"C120":(Q,"Pico.Trng.","rng_read_spec_partial rng_calls_once_partial rng_read_full_partial rng_init_spec rng_read_seed_error rng_sample","holds without a seed error between the reads of SR and DR (rng_read_spec_partial, rng_calls_once_partial, rng_read_full_partial); false with one (rng_read_seed_error)"),
"C121":(Q,"Pico.Can.Same.","same_write_partial same_write_full same_write_spoils same_read_partial same_read_empty same_read_ext same_read_stuck same_accept_all same_accept_fits same_accept_kept same_bitrate_data same_bitrate_not same_sample same_met","holds while fewer than 32 frames wait to be sent (same_write_partial) and for frames received with 1 to 8 bytes and 11-bit identifiers (same_read_partial); false otherwise (the refutations)"),
"C122":(Q,"Pico.MiscCfg.","mcfg_partial mcfg_accepts last_refused scfg_partial scfg_accepts scfg_slot can0_set can1_set dmamux_set igf_set igf_refused igf_distinct igf_layout rp_init rp_reset rp_unreset rp_refused","false for the last master and slave of the matrix (last_refused), for SLOT_CYCLE (scfg_slot) and for the place of the glitch filter's channels from 2 on (igf_layout); the rest holds"),
}
import importlib.util,os
here=os.path.dirname(os.path.abspath(__file__))
ids=[json.loads(l)['id'] for l in open(here+'/../properties.jsonl')]
claims=[]
for i in ids:
    if i in T:
        st,ns,th,note=T[i]
        th=[t if t.startswith('Pico.') else ns+t for t in th.split()]
        claims.append(dict(property=i,status=st,theorems=th,note=note))
    else: print('missing',i)
json.dump({'claims':claims},open(here+'/../MANIFEST.json','w'),indent=1)
print(len(claims),'claims')
