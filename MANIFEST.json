{
 "claims": [
  {
   "property": "C01",
   "status": "proved",
   "theorems": [
    "Pico.Sched.tick_runs_most_urgent"
   ],
   "note": ""
  },
  {
   "property": "C02",
   "status": "proved",
   "theorems": [
    "Pico.Sched.sleep_lasts_exactly"
   ],
   "note": ""
  },
  {
   "property": "C03",
   "status": "proved",
   "theorems": [
    "Pico.Sched.sleep_zero_stays_ready"
   ],
   "note": ""
  },
  {
   "property": "C04",
   "status": "proved",
   "theorems": [
    "Pico.Sched.sleep_until_on_time",
    "Pico.Sched.sleep_until_no_drift",
    "Pico.Sched.sleep_until_wakes_on_grid"
   ],
   "note": ""
  },
  {
   "property": "C05",
   "status": "partial",
   "theorems": [
    "Pico.Sched.sleep_until_late_exact",
    "Pico.Sched.sleep_until_late_partial",
    "Pico.Sched.sleep_until_late_undocumented"
   ],
   "note": "the documented behaviour of a late call is false of the code; the exact behaviour is proved, the documented one under the missing hypothesis, and a counterexample history is proved"
  },
  {
   "property": "C06",
   "status": "proved",
   "theorems": [
    "Pico.Sched.killed_never_runs"
   ],
   "note": ""
  },
  {
   "property": "C07",
   "status": "proved",
   "theorems": [
    "Pico.Sched.tick_never_stalls",
    "Pico.Sched.syscall_never_stalls",
    "Pico.Sched.step_never_undefined",
    "Pico.Sched.idle_syscall_stalls"
   ],
   "note": ""
  },
  {
   "property": "C08",
   "status": "proved",
   "theorems": [
    "Pico.Sched.resumed_where_suspended",
    "Pico.Sched.resumed_with_selected",
    "Pico.Sched.first_sp_is_prepared"
   ],
   "note": ""
  },
  {
   "property": "C09",
   "status": "proved",
   "theorems": [
    "Pico.Sched.stack_overflow_stalls",
    "Pico.Sched.stack_bounds_constant"
   ],
   "note": ""
  },
  {
   "property": "C10",
   "status": "proved",
   "theorems": [
    "Pico.Sched.get_tick_counts_ticks"
   ],
   "note": ""
  },
  {
   "property": "C11",
   "status": "proved",
   "theorems": [
    "Pico.Sched.start_orders_tasks"
   ],
   "note": ""
  },
  {
   "property": "C12",
   "status": "proved",
   "theorems": [
    "Pico.Sched.shared_priority_turns"
   ],
   "note": ""
  },
  {
   "property": "C13",
   "status": "partial",
   "theorems": [
    "Pico.Sched.one_turn_at_a_time",
    "Pico.Sched.round_robin_partial",
    "Pico.Sched.round_robin_wrap",
    "Pico.SMP.smp_round_robin_partial"
   ],
   "note": "one turn per window is false across the wrap of the truncated tick counter when the number of sharers is not a power of two (witness proved); proved away from the wrap or for dividing counts"
  },
  {
   "property": "C14",
   "status": "proved",
   "theorems": [
    "Pico.Sched.add_task_accepts",
    "Pico.Sched.add_all_accepts"
   ],
   "note": ""
  },
  {
   "property": "C15",
   "status": "partial",
   "theorems": [
    "Pico.Sched.get_next_prio_exact",
    "Pico.Sched.get_next_prio_smallest_partial",
    "Pico.Sched.get_next_prio_wrong"
   ],
   "note": "the scan restarts at pid 1; exact result proved, documented result proved under the extra hypothesis, counterexample proved"
  },
  {
   "property": "C16",
   "status": "partial",
   "theorems": [
    "Pico.Sched.get_last_prio_exact",
    "Pico.Sched.get_last_prio_largest_partial",
    "Pico.Sched.get_last_prio_wrong"
   ],
   "note": "same defect as C15"
  },
  {
   "property": "C17",
   "status": "proved",
   "theorems": [
    "Pico.Sched.start_in_bounds_iff",
    "Pico.Sched.start_lenient"
   ],
   "note": ""
  },
  {
   "property": "C18",
   "status": "proved",
   "theorems": [
    "Pico.Sched.postpone_selects",
    "Pico.Sched.postponed_runs_again"
   ],
   "note": ""
  },
  {
   "property": "C19",
   "status": "proved",
   "theorems": [
    "Pico.Sched.api_before_start_stalls",
    "Pico.Sched.api_after_start",
    "Pico.Sched.sleep_until_zero_period_stalls"
   ],
   "note": ""
  },
  {
   "property": "C20",
   "status": "proved",
   "theorems": [
    "Pico.Sched.voluntary_switch_next",
    "Pico.Sched.tick_clears_postponed"
   ],
   "note": ""
  },
  {
   "property": "C21",
   "status": "proved",
   "theorems": [
    "Pico.TaskInit.task_init_inside",
    "Pico.TaskInit.task_init_stalls_iff",
    "Pico.TaskInit.task_init_small_line"
   ],
   "note": ""
  },
  {
   "property": "C22",
   "status": "proved",
   "theorems": [
    "Pico.Sched.watermarks_tight"
   ],
   "note": ""
  },
  {
   "property": "C23",
   "status": "proved",
   "theorems": [
    "Pico.Delay.delay_sec_exact",
    "Pico.Delay.delay_msec_rounds_up",
    "Pico.Delay.delay_usec_rounds_up",
    "Pico.Delay.delay_overflows"
   ],
   "note": ""
  },
  {
   "property": "C24",
   "status": "proved",
   "theorems": [
    "Pico.Delay.delay_elapsed_iff",
    "Pico.Delay.delay_elapsed_promoted"
   ],
   "note": ""
  },
  {
   "property": "C25",
   "status": "proved",
   "theorems": [
    "Pico.SMP.smp_no_double_run",
    "Pico.SMP.smp_busy_iff_running"
   ],
   "note": ""
  },
  {
   "property": "C26",
   "status": "proved",
   "theorems": [
    "Pico.SMP.smp_affinity"
   ],
   "note": ""
  },
  {
   "property": "C27",
   "status": "proved",
   "theorems": [
    "Pico.SMP.smp_tick_per_round",
    "Pico.SMP.smp_syscall_keeps_tick"
   ],
   "note": ""
  },
  {
   "property": "C28",
   "status": "proved",
   "theorems": [
    "Pico.SMP.smp_sleep_lasts_exactly"
   ],
   "note": ""
  },
  {
   "property": "C29",
   "status": "proved",
   "theorems": [
    "Pico.SMP.smp_tick_runs_most_urgent",
    "Pico.SMP.smp_voluntary_switch"
   ],
   "note": ""
  },
  {
   "property": "C30",
   "status": "proved",
   "theorems": [
    "Pico.SMP.smp_tick_never_stalls",
    "Pico.SMP.smp_syscall_never_stalls",
    "Pico.SMP.smp_step_never_undefined",
    "Pico.SMP.smp_idle_syscall_stalls"
   ],
   "note": ""
  },
  {
   "property": "C31",
   "status": "partial",
   "theorems": [
    "Pico.SMP.smp_postponed_runs_again_partial",
    "Pico.SMP.smp_postpone_lost"
   ],
   "note": "the postpone flag is one flag for all cores, so the other core can consume it; proved for a single core sequence, counterexample history proved"
  },
  {
   "property": "C32",
   "status": "proved",
   "theorems": [
    "Pico.SMP.smp_killed_never_runs"
   ],
   "note": ""
  },
  {
   "property": "C33",
   "status": "proved",
   "theorems": [
    "Pico.Lite.lite_tick_runs_most_urgent",
    "Pico.Lite.lite_never_stalls",
    "Pico.Lite.lite_voluntary_switch"
   ],
   "note": ""
  },
  {
   "property": "C34",
   "status": "proved",
   "theorems": [
    "Pico.Lite.lite_sleep_lasts_exactly",
    "Pico.Lite.lite_killed_never_runs"
   ],
   "note": ""
  },
  {
   "property": "C35",
   "status": "partial",
   "theorems": [
    "Pico.Lite.lite_get_next_prio",
    "Pico.Lite.lite_get_last_prio_exact",
    "Pico.Lite.lite_get_last_prio_largest_partial",
    "Pico.Lite.lite_get_last_prio_wrong",
    "Pico.Lite.lite_add_all_accepts"
   ],
   "note": "get_last never examines priority 0 and does not stall when nothing is free: exact result and counterexamples proved"
  },
  {
   "property": "C36",
   "status": "proved",
   "theorems": [
    "Pico.Lite.lite_same_as_full",
    "Pico.Lite.lite_accepts_full_accepts"
   ],
   "note": ""
  },
  {
   "property": "C37",
   "status": "proved",
   "theorems": [
    "Pico.Ftx.futex_exclusive",
    "Pico.Ftx.futex_not_reentrant",
    "Pico.Ftx.futex_attempt_iff",
    "Pico.Ftx.futex_unlock_no_stall",
    "Pico.Ftx.futex_undisciplined"
   ],
   "note": "the last theorem is the counterexample without the discipline"
  },
  {
   "property": "C38",
   "status": "proved",
   "theorems": [
    "Pico.Ftx.futex_lock_attempts",
    "Pico.Ftx.futex_lock_holds",
    "Pico.Mtx.mutex_lock_attempts",
    "Pico.Mtx.mutex_lock_holds"
   ],
   "note": "CONFIG_DEADLOCK_COUNT + 1 attempts, not CONFIG_DEADLOCK_COUNT"
  },
  {
   "property": "C39",
   "status": "proved",
   "theorems": [
    "Pico.Mtx.mutex_exclusive",
    "Pico.Mtx.mutex_overflow"
   ],
   "note": "below the range of the nesting counter; counterexample beyond it"
  },
  {
   "property": "C40",
   "status": "proved",
   "theorems": [
    "Pico.Mtx.mutex_reentrant",
    "Pico.Mtx.mutex_free_iff"
   ],
   "note": ""
  },
  {
   "property": "C41",
   "status": "proved",
   "theorems": [
    "Pico.Mtx.mutex_unlock_guard",
    "Pico.Mtx.mutex_unlock_completes"
   ],
   "note": ""
  },
  {
   "property": "C42",
   "status": "proved",
   "theorems": [
    "Pico.Mtx.cond_signal_at_most_one",
    "Pico.Mtx.cond_no_spurious",
    "Pico.Mtx.cond_wait_owns",
    "Pico.Mtx.cond_wait_leaves",
    "Pico.Mtx.cond_signal_sticky",
    "Pico.Mtx.cond_wait_stall",
    "Pico.Mtx.cond_signals_merge"
   ],
   "note": "waits called with the mutex held (documented precondition)"
  },
  {
   "property": "C43",
   "status": "proved",
   "theorems": [
    "Pico.Mtx.cond_broadcast_all",
    "Pico.Mtx.cond_broadcast_stays",
    "Pico.Mtx.cond_broadcast_overwritten",
    "Pico.Mtx.cond_broadcast_unlocked"
   ],
   "note": "waits and broadcasts made with the mutex held; the counterexamples show what happens otherwise"
  },
  {
   "property": "C44",
   "status": "proved",
   "theorems": [
    "Pico.Queue.queue_is_fifo",
    "Pico.Queue.queue_init_iff",
    "Pico.Queue.queue_of_two_useless"
   ],
   "note": "capacity is count - 2"
  },
  {
   "property": "C45",
   "status": "proved",
   "theorems": [
    "Pico.QueueC.queue_conc_no_underflow",
    "Pico.QueueC.queue_conc_no_overflow",
    "Pico.QueueC.queue_conc_safe",
    "Pico.QueueC.queue_conc_loses_value",
    "Pico.QueueC.queue_conc_writers_clash",
    "Pico.QueueC.queue_conc_reader_clash"
   ],
   "note": "the documented thread safety fails: three counterexample executions"
  },
  {
   "property": "C46",
   "status": "proved",
   "theorems": [
    "Pico.Fifo.fifo_init_iff",
    "Pico.Fifo.fifo_in_order",
    "Pico.Fifo.fifo_empty_only_if",
    "Pico.Fifo.fifo_refused_only_if",
    "Pico.Fifo.fifo_capacity",
    "Pico.Fifo.fifo_in_bounds",
    "Pico.Fifo.fifo_of_two_useless"
   ],
   "note": "sequentially consistent accesses in program order"
  },
  {
   "property": "C47",
   "status": "proved",
   "theorems": [
    "Pico.Sched.scheduler_refines_spec",
    "Pico.Sched.scheduler_refines_spec_strict"
   ],
   "note": "the out-of-bounds write of picoRTOS_start (two unused slots) is taken as harmless in the first theorem; the second has no such caveat"
  },
  {
   "property": "C48",
   "status": "proved",
   "theorems": [
    "Pico.SMP.smp_refines_spec",
    "Pico.SMP.smp_refines_spec_strict"
   ],
   "note": "events happen on existing cores; the out-of-bounds write of picoRTOS_start (two unused slots) is taken as harmless in the first theorem; the second has no such caveat"
  },
  {
   "property": "C49",
   "status": "proved",
   "theorems": [
    "Pico.SMP.smp_add_task_accepts",
    "Pico.SMP.smp_add_task_any",
    "Pico.SMP.smp_get_tick"
   ],
   "note": ""
  },
  {
   "property": "C50",
   "status": "partial",
   "theorems": [
    "Pico.SMP.smp_self_pinned_partial",
    "Pico.SMP.smp_self_migrates_wrong",
    "Pico.SMP.smp_running_check_stalls"
   ],
   "note": "proved for tasks pinned to one core; counterexamples proved for the others"
  },
  {
   "property": "C51",
   "status": "proved",
   "theorems": [
    "Pico.SMP.smp_sleep_zero",
    "Pico.SMP.smp_sleep_until_on_time",
    "Pico.SMP.smp_sleep_until_no_drift",
    "Pico.SMP.smp_sleep_until_late",
    "Pico.SMP.smp_resumed_where_suspended",
    "Pico.SMP.smp_resumed_with_selected",
    "Pico.SMP.smp_stack_overflow_stalls",
    "Pico.SMP.smp_task_constant",
    "Pico.SMP.smp_sleep_until_zero_period_stalls"
   ],
   "note": ""
  },
  {
   "property": "C52",
   "status": "partial",
   "theorems": [
    "Pico.SMP.smp_get_next_prio_exact",
    "Pico.SMP.smp_get_next_prio_smallest_partial",
    "Pico.SMP.smp_get_next_prio_wrong",
    "Pico.SMP.smp_get_last_prio_exact",
    "Pico.SMP.smp_get_last_prio_largest_partial",
    "Pico.SMP.smp_get_last_prio_wrong"
   ],
   "note": "same defect as C15/C16: exact result, documented result under an extra hypothesis, counterexamples"
  },
  {
   "property": "C53",
   "status": "partial",
   "theorems": [
    "Pico.Arch.cas_armv7",
    "Pico.Arch.cas_armv7_effective",
    "Pico.Arch.cas_ppc",
    "Pico.Arch.cas_ppc_effective",
    "Pico.Arch.cas_mips_partial",
    "Pico.Arch.cas_mips_effective",
    "Pico.Arch.tas_mips_wrong",
    "Pico.Arch.tas_mips_two_owners",
    "Pico.Arch.cas_mips_not_correct",
    "Pico.Arch.cas_rv32imac_inverted",
    "Pico.Arch.tas_rv32imac_wrong",
    "Pico.Arch.cas_rv32imac_not_correct",
    "Pico.Arch.cas_masked",
    "Pico.Arch.cas_masked_effective",
    "Pico.Arch.cas_8051",
    "Pico.Arch.cas_8051_effective",
    "Pico.Arch.cas_masked_enables",
    "Pico.Arch.cas_llsc_keeps_mask",
    "Pico.Arch.cas_hcs08_masks",
    "Pico.Arch.cas_hcs08_wrong",
    "Pico.Arch.tas_masked",
    "Pico.Arch.tas_c28x",
    "Pico.Arch.Lock.cas_lock_ok",
    "Pico.Arch.Lock.cas_lock_effective",
    "Pico.Arch.Lock.cas_lock_loses_store",
    "Pico.Arch.Lock.cas_lock_spurious"
   ],
   "note": "proved for armv7-m/armv7e-m, e200z4/e200z7, avr, stm8, armv6-m, rv32ec, pthread and win32 (as far as arch_suspend holds there, see C63), 8051, c28x, rp2040; false (counterexamples and exact theorems) for mips with old = 0, rv32imac, hcs08"
  },
  {
   "property": "C54",
   "status": "partial",
   "theorems": [
    "Pico.Ctx.switch_invisible",
    "Pico.Ctx.switch_possible",
    "Pico.Ctx.RiscV.imac_sound",
    "Pico.Ctx.RiscV.ec_sound",
    "Pico.Ctx.Mips.mips_sound_partial",
    "Pico.Ctx.Mips.s6_lost",
    "Pico.Ctx.Mips.mips_not_sound",
    "Pico.Ctx.Mips.at_lost",
    "Pico.Ctx.Ppc.ppc_sound",
    "Pico.Ctx.Ppc.ppc_reservation_lost",
    "Pico.Ctx.Ppc.ppc_reservation_kept",
    "Pico.Ctx.Ppc.ppc_reservation_cleared",
    "Pico.Ctx.Ppc.ppc_not_sound",
    "Pico.Ctx.Arm.arm_sound",
    "Pico.Ctx.Arm.arm_enter_cok",
    "Pico.Ctx.Arm.arm_leave_ok",
    "Pico.Ctx8.Avr.avr_sound",
    "Pico.Ctx8.Stm8.stm8_sound",
    "Pico.Ctx8.Hcs08.hcs08_sound",
    "Pico.Ctx51.mcs51_sound_partial",
    "Pico.Ctx51.mcs51_ret",
    "Pico.Ctx51.mcs51_late_save",
    "Pico.Ctx51.mcs51_syscall_is_switch",
    "Pico.Ctx51.mcs51_bp_wrong",
    "Pico.C28x.c28x_sound",
    "Pico.C28x.c28x_below",
    "Pico.C28x.c28x_fpu_partial",
    "Pico.C28x.c28x_fpu_wrong"
   ],
   "note": "proved for rv32imac, rv32ec, avr, stm8, hcs08, armv6-m, armv7-m, armv7e-m (with FPU) and powerpc cores whose sthcx. checks its address (counterexample for the others); mips loses two registers (counterexample), proved for the others; 8051: proved for everything but the frame pointer of the compiler, which is not saved (counterexample); c28x: proved without floating-point unit, with one the halves of its registers are exchanged (counterexample)"
  },
  {
   "property": "C55",
   "status": "partial",
   "theorems": [
    "Pico.Ctx.RiscV.imac_first",
    "Pico.Ctx.RiscV.ec_first",
    "Pico.Ctx.RiscV.imac_start",
    "Pico.Ctx.RiscV.ec_start",
    "Pico.Ctx.Mips.mips_first",
    "Pico.Ctx.Mips.mips_start",
    "Pico.Ctx.Ppc.ppc_first",
    "Pico.Ctx.Ppc.ppc_start",
    "Pico.Ctx.Arm.arm_first",
    "Pico.Ctx.Arm.arm_start",
    "Pico.Ctx.Arm.arm_start_pwm",
    "Pico.Ctx8.Avr.avr_first",
    "Pico.Ctx8.Avr.avr_first_fits",
    "Pico.Ctx8.Avr.avr_start",
    "Pico.Ctx8.Stm8.stm8_first",
    "Pico.Ctx8.Stm8.stm8_start",
    "Pico.Ctx8.Hcs08.hcs08_first",
    "Pico.Ctx8.Hcs08.hcs08_first_fits",
    "Pico.Ctx8.Hcs08.hcs08_start",
    "Pico.Host.Win.win32_entry_partial",
    "Pico.Host.Win.win32_entry_wrong",
    "Pico.Ctx51.mcs51_first_partial",
    "Pico.Ctx51.mcs51_first_wrong",
    "Pico.Ctx51.mcs51_first_fits",
    "Pico.Ctx51.mcs51_start",
    "Pico.C28x.c28x_first",
    "Pico.C28x.c28x_first_fits",
    "Pico.C28x.c28x_first_odd_wrong"
   ],
   "note": "proved on c28x for even stack addresses, refuted for odd ones; refuted on win32, where every task runs the function prepared last; proved on rv32imac, avr, stm8, hcs08, rv32ec, mips, powerpc, armv6-m (rp2040 included), armv7-m, armv7e-m (where FPSCR of a new task is whatever its stack held); 8051: proved if r5 and r6 hold the address passed in dptr (wrong otherwise), and but for the third byte of the argument, dropped"
  },
  {
   "property": "C56",
   "status": "partial",
   "theorems": [
    "Pico.Ctx.RiscV.imac_syscall_args",
    "Pico.Ctx.RiscV.ec_syscall_args",
    "Pico.Ctx.RiscV.imac_interrupt_enable",
    "Pico.Ctx.RiscV.ec_interrupt_enable",
    "Pico.Ctx.Mips.mips_syscall_args",
    "Pico.Ctx.Mips.mips_interrupt_enable",
    "Pico.Ctx.Ppc.ppc_syscall_args",
    "Pico.Ctx.Arm.arm_syscall_args",
    "Pico.Ctx.Arm.arm_interrupt_enable",
    "Pico.Ctx8.Avr.avr_syscall_args",
    "Pico.Ctx8.Avr.avr_interrupt_enable",
    "Pico.Ctx8.Stm8.stm8_syscall_args_partial",
    "Pico.Ctx8.Stm8.stm8_syscall_priv",
    "Pico.Ctx8.Stm8.stm8_priv_lost",
    "Pico.Ctx8.Stm8.stm8_interrupt_enable",
    "Pico.Ctx8.Hcs08.hcs08_syscall_args",
    "Pico.Ctx51.mcs51_syscall_args",
    "Pico.C28x.c28x_syscall_args",
    "Pico.C28x.c28x_interrupt_enable"
   ],
   "note": "proved for rv32imac, avr, rv32ec, mips, powerpc, arm, hcs08; on stm8 the second argument is lost (counterexample), proved for the first; proved on 8051, and on c28x for an even stack pointer"
  },
  {
   "property": "C57",
   "status": "partial",
   "theorems": [
    "Pico.Ctx.RiscV.imac_isr_partial",
    "Pico.Ctx.RiscV.ec_isr_partial",
    "Pico.Ctx.RiscV.imac_isr_wrong",
    "Pico.Ctx.RiscV.ec_isr_wrong",
    "Pico.Ctx.RiscV.imac_isr_return",
    "Pico.Ctx.RiscV.ec_isr_return",
    "Pico.Ctx.Mips.mips_isr",
    "Pico.Ctx.Ppc.ppc_isr",
    "Pico.Ctx.Ppc.ppc_isr_resumes",
    "Pico.Ctx.Arm.arm_isr",
    "Pico.Ctx.Arm.arm_isr_resumes",
    "Pico.Ctx8.Avr.avr_isr",
    "Pico.Ctx8.Avr.avr_isr_r1",
    "Pico.Ctx8.Avr.avr_isr_resumes",
    "Pico.Ctx8.Stm8.stm8_isr",
    "Pico.Ctx8.Stm8.stm8_isr_resumes",
    "Pico.Ctx8.Hcs08.hcs08_isr",
    "Pico.Ctx8.Hcs08.hcs08_isr_resumes",
    "Pico.IsrTab.c28x_isr_wrong",
    "Pico.IsrTab.c28x_isr_outside",
    "Pico.IsrTab.c28x_isr_lost",
    "Pico.Ctx51.mcs51_isr",
    "Pico.Ctx51.mcs51_entry",
    "Pico.Ctx51.mcs51_isr_resumes",
    "Pico.C28x.c28x_isr_resumes"
   ],
   "note": "proved on powerpc, arm, stm8, hcs08 and avr (where the function is entered with r1 of the task, which C takes for zero); the dispatch is right on mips and for interrupt 0 only on RISC-V; the return is wrong on those three; c28x runs the function of irq + 32; proved on 8051 but for the third byte of the argument, always 0"
  },
  {
   "property": "C58",
   "status": "partial",
   "theorems": [
    "Pico.Ctx.RiscV.tick_period_partial",
    "Pico.Ctx.RiscV.tick_period_wrong",
    "Pico.Ctx.Mips.mips_tick_period",
    "Pico.Ctx.Mips.mips_first_tick",
    "Pico.Tick.stc_tick_time",
    "Pico.Tick.stc_right_partial",
    "Pico.Tick.stc_drifts",
    "Pico.Tick.stc_late_forever",
    "Pico.Tick.stc_wrong"
   ],
   "note": "mips proved; rv32imac unless the low word of the comparator is 0 (counterexample); stc12 (software reload) only if the handler reloads exactly 84 cycles after the overflow, otherwise it drifts"
  },
  {
   "property": "C59",
   "status": "partial",
   "theorems": [
    "Pico.Intc.Nvic.enable_ok",
    "Pico.Intc.Nvic.enable6_ok",
    "Pico.Intc.Nvic.disable_no_effect",
    "Pico.Intc.Nvic.disable_wrong",
    "Pico.Intc.Nvic.disable6_wrong",
    "Pico.Intc.Pfic.enable_ok",
    "Pico.Intc.Pfic.disable_no_effect",
    "Pico.Intc.Pfic.disable_wrong",
    "Pico.Intc.Eclic.enable_ok",
    "Pico.Intc.Eclic.disable_ok",
    "Pico.Intc.Pic32.disable_ok",
    "Pico.Intc.Pic32.enable_ok_partial",
    "Pico.Intc.Pic32.enable_wrong",
    "Pico.Intc.Pie.enable_ok_partial",
    "Pico.Intc.Pie.disable_ok_partial",
    "Pico.Intc.Pie.low_wrong",
    "Pico.Intc.Siul2.enable_ok",
    "Pico.Intc.Siul2.disable_ok",
    "Pico.Intc.Siul2.smp_enable_ok_partial",
    "Pico.Intc.Siul2.smp_enable_wrong",
    "Pico.Intc.Siul2.smp_disable_ok",
    "Pico.Intc.Siu.enable_ok",
    "Pico.Intc.Siu.disable_ok",
    "Pico.Intc.Siu.smp_enable_ok",
    "Pico.Intc.Siu.smp_disable_ok_partial",
    "Pico.Intc.Siu.smp_disable_wrong",
    "Pico.Intc.Siu.smp_disable_enables",
    "Pico.Intc.Mcs51.n76e003_ok",
    "Pico.Intc.Mcs51.ch552_ok",
    "Pico.Intc.Mcs51.stc12_ok_partial",
    "Pico.Intc.Mcs51.cy7c_ok_partial",
    "Pico.C28x.c28x_groups_masked"
   ],
   "note": "full on rv32imac, e200 (one core), n76e003, ch552; the rest is false and shown false: no disable on Cortex-M and rv32ec, wrong priority field on pic32mz, wrong offset on c28x, SMP masks on e200"
  },
  {
   "property": "C60",
   "status": "partial",
   "theorems": [
    "Pico.Cache.flush_ok",
    "Pico.Cache.invalidate_ok",
    "Pico.Cache.flush_aligned",
    "Pico.Cache.flush_aligned_end",
    "Pico.Cache.flush_task_stack",
    "Pico.Cache.flush_wrong",
    "Pico.Cache.invalidate_wrong",
    "Pico.Cache.Cmcc.invalidate_wrong",
    "Pico.Ctx.Mips.invalidate_keeps",
    "Pico.Ctx.Mips.writeback_ksp",
    "Pico.Ctx.Mips.flush_breaks_kernel_stack"
   ],
   "note": "proved for the ranges whose lines the code counts right (aligned start or end included; the stacks the SMP scheduler flushes among them); refuted for every other range, for atsame5x, and for the mips kernel stack pointer"
  },
  {
   "property": "C61",
   "status": "partial",
   "theorems": [
    "Pico.Counter.free_exact",
    "Pico.Counter.ns_exact",
    "Pico.Counter.ns_bounded",
    "Pico.Counter.down_since",
    "Pico.Counter.down_not_exact",
    "Pico.Counter.down_within_one",
    "Pico.Counter.down_bounded",
    "Pico.Counter.rp_since",
    "Pico.Counter.rp_not_exact",
    "Pico.Counter.rp_bounded",
    "Pico.Counter.avr_since",
    "Pico.Counter.avr_not_exact",
    "Pico.Counter.avr_bounded",
    "Pico.Counter.stk_since",
    "Pico.Counter.stk_not_exact",
    "Pico.Counter.stk_not_bounded"
   ],
   "note": "exact on mips, rv32imac, e200 STM and pthread; on the others the exact value returned is given and the claim refuted"
  },
  {
   "property": "C62",
   "status": "partial",
   "theorems": [
    "Pico.IsrTab.arm_table",
    "Pico.IsrTab.mips_table",
    "Pico.IsrTab.riscv_table",
    "Pico.IsrTab.ppc_table",
    "Pico.IsrTab.stm8_table",
    "Pico.IsrTab.hcs08_table",
    "Pico.IsrTab.mcs51_table",
    "Pico.IsrTab.mcs51_look",
    "Pico.IsrTab.c28x_table",
    "Pico.IsrTab.avr_table_partial",
    "Pico.IsrTab.avr_table_overrun",
    "Pico.IsrTab.avr_table_wrong",
    "Pico.IsrTab.c28x_release_overrun"
   ],
   "note": "proved on arm, mips, riscv, powerpc, stm8, hcs08, 8051 and c28x (debug); false on avr, where the table is one byte per 4-byte entry, and for out-of-range numbers of c28x in a release build"
  },
  {
   "property": "C63",
   "status": "partial",
   "theorems": [
    "Pico.Mask.mcs51_ok",
    "Pico.Mask.avr_ok",
    "Pico.Mask.mips_ok",
    "Pico.Mask.ppc_ok",
    "Pico.Mask.c28x_ok",
    "Pico.Mask.riscv_ok",
    "Pico.Mask.arm_ok",
    "Pico.Mask.arm7e_ok",
    "Pico.Mask.stm8_ok_partial",
    "Pico.Mask.stm8_boot_wrong",
    "Pico.Mask.hcs08_wrong",
    "Pico.Mask.hcs08_not_critical",
    "Pico.Mask.hcs08_stuck",
    "Pico.Mask.no_nesting",
    "Pico.Mask.arm7e_time_stops",
    "Pico.Mask.win32_partial",
    "Pico.Mask.win32_wrong",
    "Pico.Host.Pth.pthread_critical_section",
    "Pico.Arch.cas_masked_enables",
    "Pico.Arch.cas_llsc_keeps_mask",
    "Pico.Arch.cas_hcs08_masks"
   ],
   "note": "proved on 8051, avr, mips, powerpc, c28x, riscv, arm; refuted on hcs08, at boot on stm8, on win32 for a tick already under way, on pthread for a tick another thread receives; critical sections do not nest"
  },
  {
   "property": "C64",
   "status": "partial",
   "theorems": [
    "Pico.Spin.smp_exclusive_debug",
    "Pico.Spin.smp_exclusive_partial",
    "Pico.Spin.smp_both_inside",
    "Pico.Spin.smp_stolen",
    "Pico.Spin.smp_gives_up_late"
   ],
   "note": "proved for debug builds, and for release builds as long as no core gives up; refuted for release builds"
  },
  {
   "property": "C65",
   "status": "partial",
   "theorems": [
    "Pico.Tick.systick_right",
    "Pico.Tick.systick_wrong",
    "Pico.Tick.tc0_right",
    "Pico.Tick.tc0_wrong",
    "Pico.Tick.tc0Tiny_right",
    "Pico.Tick.rtc_right",
    "Pico.Tick.mtim1_period",
    "Pico.Tick.mtim1_partial",
    "Pico.Tick.mtim1_wrong",
    "Pico.Tick.mtim1_none",
    "Pico.Tick.hcsRtc_wrong",
    "Pico.Tick.hcsRtc_partial",
    "Pico.Tick.awu_right",
    "Pico.Tick.awu_wrong",
    "Pico.Tick.t2_right",
    "Pico.Tick.t2_wrong",
    "Pico.Tick.t2mcs_right",
    "Pico.Tick.t2mcs_wrong",
    "Pico.Tick.t2n76_right",
    "Pico.Tick.t2n76_wrong",
    "Pico.Tick.wkt_right",
    "Pico.Tick.wide_right",
    "Pico.Tick.stmZ7_partial",
    "Pico.Tick.stmZ7_wrong",
    "Pico.Tick.dec_disabled",
    "Pico.Tick.rpPwm_right",
    "Pico.Tick.rpPwm_wrong",
    "Pico.Tick.itimer_right",
    "Pico.Tick.sleepMs_right"
   ],
   "note": "per port: proved in the range of frequencies where it holds, refuted outside; hcs08 RTC refuted for every frequency"
  },
  {
   "property": "C66",
   "status": "partial",
   "theorems": [
    "Pico.Host.Win.win32_one_partial",
    "Pico.Host.Win.win32_kept_task_dies",
    "Pico.Host.Win.win32_two_run",
    "Pico.Host.Win.win32_none_runs",
    "Pico.Host.Pth.pthread_one_partial",
    "Pico.Host.Pth.pthread_main_two_run",
    "Pico.Host.Pth.pthread_waiter_wrong_task",
    "Pico.Host.Pth.pthread_kept_task_stops",
    "Pico.Host.Pth.pthread_lost_wakeup",
    "Pico.Host.Pth.pthread_never_starts"
   ],
   "note": "false of both host ports, shown by runs for arbitrary tasks; proved under the conditions the ports rely on"
  },
  {
   "property": "C67",
   "status": "partial",
   "theorems": [
    "Pico.Drv.Tx.tx_in_order",
    "Pico.Drv.Tx.tx_progress",
    "Pico.Drv.Tx.tx_no_overrun",
    "Pico.Drv.Tx.tx_said_accepted",
    "Pico.Drv.Tx.tx_isr_quiet",
    "Pico.Drv.Tx.n76_said_partial",
    "Pico.Drv.Tx.n76_said_wrong",
    "Pico.Drv.Tx.n76_full",
    "Pico.Drv.Tx.avr_said_partial",
    "Pico.Drv.Tx.avr_said_wrong"
   ],
   "note": "all but the returned value on the four drivers; the returned value on atsamx7x and 8051; refuted on n76e003 (full fifo) and avr (buffer longer than size - 2), proved there when everything fits"
  },
  {
   "property": "C68",
   "status": "proved",
   "theorems": [
    "Pico.Drv.Rx.rx_in_order",
    "Pico.Drv.Rx.rx_stored",
    "Pico.Drv.Rx.rx_no_loss",
    "Pico.Drv.Rx.rx_short",
    "Pico.Drv.Rx.rx_returns"
   ],
   "note": ""
  },
  {
   "property": "C69",
   "status": "partial",
   "theorems": [
    "Pico.Spi.spi_wire",
    "Pico.Spi.spi_complete",
    "Pico.Spi.spi_data",
    "Pico.Spi.spi_lost_hangs",
    "Pico.Spi.single_never_loses",
    "Pico.Spi.limited_never_loses",
    "Pico.Spi.plain_never_loses_partial",
    "Pico.Spi.plain_loses",
    "Pico.Spi.lgt_loses",
    "Pico.Spi.half_second_byte",
    "Pico.Spi.sam8_skips",
    "Pico.Spi.sam8_overflow",
    "Pico.Spi.single_uninit_stuck"
   ],
   "note": "wire and buffer contents on every driver whose stores match its frames; no loss on the drivers with one frame under way, with a counted limit, or with WDRBT, and on the others if the receiver is deeper than the transmitter; refuted otherwise (an answer is lost when the caller is preempted, then the transfer never ends), for 16-bit frames of pic32mx and renesas_ra4 (one byte stored), for 8-bit frames of atsamx7x and sam3x (every other byte, writes past the buffer), and for gd32vf103/renesas_ra4 contexts whose balance is not 0 at first"
  },
  {
   "property": "C70",
   "status": "partial",
   "theorems": [
    "Pico.FlashExt.reset_sends",
    "Pico.FlashExt.erase_right",
    "Pico.FlashExt.erase_returns",
    "Pico.FlashExt.erase_refuses",
    "Pico.FlashExt.erase_protected",
    "Pico.FlashExt.write_exact",
    "Pico.FlashExt.write_returns",
    "Pico.FlashExt.write_right_partial",
    "Pico.FlashExt.write_short_wrong",
    "Pico.FlashExt.write_end_refused",
    "Pico.FlashExt.read_wrong",
    "Pico.FlashExt.read_end_refused",
    "Pico.FlashExt.probe25_right",
    "Pico.FlashExt.probe26_right_partial",
    "Pico.FlashExt.probe26_wrong",
    "Pico.FlashExt.probe26_bytewise_wrong",
    "Pico.FlashExt.unlock26_wrong",
    "Pico.FlashExt.lock_wrong",
    "Pico.FlashExt.quad_right",
    "Pico.FlashExt.quad_returns"
   ],
   "note": "erase, quad_enable and the probe of s25fl1 proved; write proved for data of a page or more, refuted for less (the rest of the page is programmed with the contents of a static buffer); read refuted (nothing is read); the probe of sst26vf proved for messages sent at once, refuted when they are split; the last bytes of the memory refused"
  },
  {
   "property": "C71",
   "status": "partial",
   "theorems": [
    "Pico.Can.mcan_bitrate",
    "Pico.Can.mcan_bitrate_iff",
    "Pico.Can.flexcan_bitrate",
    "Pico.Can.flexcan_bitrate_iff",
    "Pico.Can.sam3x_bitrate",
    "Pico.Can.sam3x_bitrate_iff",
    "Pico.Can.pic32mx_bitrate",
    "Pico.Can.dcan_bitrate_partial",
    "Pico.Can.dcan_presc_iff",
    "Pico.Can.dcan_wrong",
    "Pico.Can.dcan_125k",
    "Pico.Can.dcan_sample",
    "Pico.Can.gd32_always_wrong"
   ],
   "note": "proved (with the exact success condition) for M_CAN, FlexCAN, SAM3X, PIC32MX (staging). TI DCAN: BRPE is given (brp-1) >> 5 instead of >> 6, right when the prescaler is at most 32 (f < 264 b), always wrong for 800 b < f < 7944 b (125 kbit/s at 200 MHz gives 69.4 kbit/s), and samples 2 to 4 quanta early (dcan_sample). GD32VF103 (staging): the prescaler is off by one, always wrong"
  },
  {
   "property": "C72",
   "status": "partial",
   "theorems": [
    "Pico.Can.Mcan.mcan_write",
    "Pico.Can.Flexcan.flexcan_write",
    "Pico.Can.Dcan.dcan_write",
    "Pico.Can.Sam3x.sam3x_write_partial",
    "Pico.Can.Sam3x.busId_iff",
    "Pico.Can.Sam3x.sam3x_one_byte",
    "Pico.Can.Sam3x.sam3x_pair",
    "Pico.Can.Flexcan.flexcan_reorder"
   ],
   "note": "proved for M_CAN, FlexCAN and TI DCAN (11-bit identifiers only, the driver refuses the others). SAM3X: format, length and mailbox proved, but the bytes of each word go out in reverse order (a 1-byte frame always carries 0) and 29-bit identifiers from 2^14 up are scrambled (busId_iff). flexcan_reorder: frames of one identifier do not leave in the order they were written"
  },
  {
   "property": "C73",
   "status": "partial",
   "theorems": [
    "Pico.Can.Mcan.mcan_read_partial",
    "Pico.Can.Mcan.mcan_read_empty",
    "Pico.Can.Mcan.mcan_arrive",
    "Pico.Can.Mcan.mcan_read_overflow",
    "Pico.Can.Mcan.mcan_read_full",
    "Pico.Can.Mcan.mcan_stuck",
    "Pico.Can.Flexcan.flexcan_read_partial",
    "Pico.Can.Flexcan.flexcan_read_empty",
    "Pico.Can.Flexcan.flexcan_read_zero",
    "Pico.Can.Flexcan.flexcan_read_overflow",
    "Pico.Can.Sam3x.sam3x_read_partial",
    "Pico.Can.Sam3x.sam3x_read_empty",
    "Pico.Can.Dcan.dcan_read_partial",
    "Pico.Can.Dcan.dcan_read_empty",
    "Pico.Can.Dcan.dcan_cells",
    "Pico.Can.Dcan.dcan_read_wrong_id"
   ],
   "note": "partial: right frame for frames that fit in the buffer; false in general, with proofs: M_CAN, FlexCAN and DCAN write past a buffer smaller than the frame; M_CAN reports -EAGAIN for ever once 64 frames wait (mcan_stuck); FlexCAN loses frames without data; SAM3X gives the bytes of a word in reverse; DCAN returns the identifier of the last can_accept and two bytes in cells 1, 2, 5, 6"
  },
  {
   "property": "C74",
   "status": "partial",
   "theorems": [
    "Pico.Can.Mcan.mcan_accept",
    "Pico.Can.Flexcan.flexcan_accept_partial",
    "Pico.Can.Flexcan.flexcan_any_refused",
    "Pico.Can.Sam3x.sam3x_accept_partial",
    "Pico.Can.Sam3x.sam3x_ext_refused",
    "Pico.Can.Dcan.dcan_accept_partial",
    "Pico.Can.Dcan.dcan_any_refused"
   ],
   "note": "proved for M_CAN. FlexCAN and DCAN ignore the masks (individual masks never enabled, mask never transferred): exactly the identifiers given are received, CAN_ACCEPT_ANY included. SAM3X: right for 11-bit frames, 29-bit identifiers and masks are scrambled"
  },
  {
   "property": "C75",
   "status": "partial",
   "theorems": [
    "Pico.FlashInt.Same5x.same5x_write_partial",
    "Pico.FlashInt.Same5x.same5x_write_completes",
    "Pico.FlashInt.Same5x.same5x_lost",
    "Pico.FlashInt.Same5x.same5x_erase_partial",
    "Pico.FlashInt.Same5x.same5x_erase_sector",
    "Pico.FlashInt.Same5x.same5x_erase_wide",
    "Pico.FlashInt.Gd32.gd32_write_partial",
    "Pico.FlashInt.Gd32.gd32_silent",
    "Pico.FlashInt.Eefc.eefc_erase_iff",
    "Pico.FlashInt.Eefc.eefc_write_page0",
    "Pico.FlashInt.Eefc.eefc_lock"
   ],
   "note": "same5x: right except when a whole page follows an unaligned beginning (page - 16 bytes reported and never written), and an erase takes 16 sectors. gd32: right in an erased area, errors never looked at. eefc: wrong page in erase (except 0) and write (always page 0, returns 0); lock/unlock right"
  },
  {
   "property": "C76",
   "status": "proved",
   "theorems": [
    "Pico.Rng.rng_read_spec",
    "Pico.Rng.rng_read_split",
    "Pico.Rng.rng_period",
    "Pico.Rng.rng_nonzero",
    "Pico.Rng.rng_every",
    "Pico.Rng.rng_seed_zero"
   ],
   "note": "for non-zero seeds; seed 0 is accepted and gives only zeros (rng_seed_zero)"
  },
  {
   "property": "C77",
   "status": "partial",
   "theorems": [
    "Pico.EepromAvr.avr_eeprom_partial",
    "Pico.EepromAvr.avr_read",
    "Pico.EepromAvr.avr_lost",
    "Pico.EepromAvr.avr_lost_any",
    "Pico.EepromAvr.avr_erase_lost",
    "Pico.EepromAvr.avr_irq_lost"
   ],
   "note": "right when the hardware is idle at each write; a write while another is under way is reported done and lost (&& where || is meant)"
  },
  {
   "property": "C78",
   "status": "partial",
   "theorems": [
    "Pico.Gpio.gpio_write_partial",
    "Pico.Gpio.gpio_write_dir",
    "Pico.Gpio.stm8_write",
    "Pico.Gpio.gpio_toggle_partial",
    "Pico.Gpio.renesas_toggle_inverted",
    "Pico.Gpio.gpio_read_spec",
    "Pico.Gpio.gpio_write_read",
    "Pico.Gpio.gpio_read_effect",
    "Pico.Gpio.gpio_setup_spec",
    "Pico.Gpio.gpio_tasks_partial",
    "Pico.Gpio.gpio_lost",
    "Pico.Gpio.gpio_wrong"
   ],
   "note": "write: all drivers except stm8 (clears the other pins); toggle: all except renesas inverted (does nothing); tasks: the drivers with set/clear registers; with the read-modify-write ones updates are lost (gpio_lost)"
  },
  {
   "property": "C79",
   "status": "partial",
   "theorems": [
    "Pico.TwiAvr.twi_avr_partial",
    "Pico.TwiAvr.twi_avr_ends",
    "Pico.TwiAvr.avr_nack",
    "Pico.TwiAvr.avr_nack_any",
    "Pico.TwiAvr.avr_nack_last",
    "Pico.TwiAvr.avr_read_stop",
    "Pico.TwiAvr.avr_read_hangs"
   ],
   "note": "right, and ends, when data bytes are acknowledged; a data byte not acknowledged is counted as written (avr_nack*); reads always end with STOP (avr_read_stop) and never end without TWI_F_S (avr_read_hangs)"
  },
  {
   "property": "C80",
   "status": "partial",
   "theorems": [
    "Pico.TwiDw.twi_dw_partial",
    "Pico.TwiDw.twi_dw_drain",
    "Pico.TwiDw.dw_lost",
    "Pico.TwiDw.dw_absent"
   ],
   "note": "right when the device acknowledges and the activity flag is prompt; a message to an absent device that fits in the FIFO is reported written, the error goes to the next one (dw_absent); with a late activity flag a message is lost (dw_lost); TWI_F_S and TWI_F_P are ignored"
  },
  {
   "property": "C81",
   "status": "partial",
   "theorems": [
    "Pico.Pwm.sam_period",
    "Pico.Pwm.tc_period",
    "Pico.Pwm.avr_period_fast",
    "Pico.Pwm.avr_select",
    "Pico.Pwm.avr_phase_wrong",
    "Pico.Pwm.avr_256_wrong",
    "Pico.Pwm.avr_top_wrong",
    "Pico.Pwm.avr_top_kept",
    "Pico.Pwm.gd32_wrong",
    "Pico.Pwm.emios_period",
    "Pico.Pwm.emios_refuses",
    "Pico.Pwm.pic32_best",
    "Pico.Pwm.renesas_best",
    "Pico.Pwm.pic32_period",
    "Pico.Pwm.renesas_period",
    "Pico.Pwm.rp2040_period",
    "Pico.Pwm.rp2040_wrong",
    "Pico.Pwm.same5x_period",
    "Pico.Pwm.stm_ends",
    "Pico.Pwm.stm32_period",
    "Pico.Pwm.stm32_long",
    "Pico.Pwm.stm32_wrong",
    "Pico.Pwm.epwm_period",
    "Pico.Pwm.tinyavr_period",
    "Pico.Pwm.ftm_period",
    "Pico.Pwm.ftm_wrong",
    "Pico.Pwm.n76_period",
    "Pico.Pwm.ch552_period",
    "Pico.Pwm.ch552_wrong",
    "Pico.Pwm.duty_shift",
    "Pico.Pwm.duty_shift_zero",
    "Pico.Pwm.duty_shift_full",
    "Pico.Pwm.duty_shift_mono",
    "Pico.Pwm.duty_shift_overflow",
    "Pico.Pwm.duty_tc",
    "Pico.Pwm.duty_div",
    "Pico.Pwm.duty_div_overflow",
    "Pico.Pwm.duty_ch552",
    "Pico.Pwm.duty_pic32"
   ],
   "note": "exact conditions per driver: the frequency is truncated to MHz and overflows are not checked; avr phase-correct waveforms last twice as long, CLKIO_256 is unknown to the driver, OCnA overwrites TOP; gd32vf103 divides by one too many; rp2040 forgets the divider; stm32h7 refuses more than 65 ms; mc9s08 loses the prescaler; 65535 is one count short of 100 %"
  },
  {
   "property": "C82",
   "status": "partial",
   "theorems": [
    "Pico.UartRate.within_of",
    "Pico.UartRate.rate_iff",
    "Pico.UartRate.sam_rate",
    "Pico.UartRate.usart_rate",
    "Pico.UartRate.avr_rate",
    "Pico.UartRate.pic32_rate",
    "Pico.UartRate.tinyavr_rate",
    "Pico.UartRate.mc9_rate",
    "Pico.UartRate.renesas_rate",
    "Pico.UartRate.renesas_none",
    "Pico.UartRate.stm32_rate",
    "Pico.UartRate.stm32_none",
    "Pico.UartRate.lin_rate",
    "Pico.UartRate.gd32_rate",
    "Pico.UartRate.gd32_coarse",
    "Pico.UartRate.gd32_wrong",
    "Pico.UartRate.gd32_trap",
    "Pico.UartRate.pl011_eq",
    "Pico.UartRate.pl011_right",
    "Pico.UartRate.pl011_wrong",
    "Pico.UartRate.pl011_range",
    "Pico.UartRate.sercom_eq",
    "Pico.UartRate.sercom_rate",
    "Pico.UartRate.sercom_slow",
    "Pico.UartRate.sercom_wrong",
    "Pico.UartRate.mcs51_rate",
    "Pico.UartRate.mcs51i_rate",
    "Pico.UartRate.n76t1_rate",
    "Pico.UartRate.n76t3_rate",
    "Pico.UartRate.n76u1_wrong",
    "Pico.UartRate.n76_accepts"
   ],
   "note": "exact conditions per driver; no driver but renesas, stm32 (slow side) and sercom refuses a rate its divider cannot produce; pl011 writes hundredths into a 1/64 field; gd32vf103 divides the remainder by the quotient and traps above F/16; linflexd rounds 15.5/16 up to 0/16; sercom loses up to 8 % at 9600 from 48 MHz; n76e003 UART1 runs at half the rate"
  },
  {
   "property": "C83",
   "status": "partial",
   "theorems": [
    "Pico.UartFmt.pl011_fmt",
    "Pico.UartFmt.pl011_refuses",
    "Pico.UartFmt.pl011_baud",
    "Pico.UartFmt.pl011_baud_lost",
    "Pico.UartFmt.sercom_fmt",
    "Pico.UartFmt.sercom_refuses",
    "Pico.UartFmt.sercom_refused_off",
    "Pico.UartFmt.sercom_msb",
    "Pico.UartFmt.sam_fmt",
    "Pico.UartFmt.sam_right",
    "Pico.UartFmt.sam_wrong",
    "Pico.UartFmt.usart_fmt",
    "Pico.UartFmt.usart_ignore_refused",
    "Pico.UartFmt.avr_fmt",
    "Pico.UartFmt.avr_refuses",
    "Pico.UartFmt.tiny_fmt",
    "Pico.UartFmt.tiny_refuses",
    "Pico.UartFmt.gd_fmt",
    "Pico.UartFmt.gd_refuses",
    "Pico.UartFmt.gd_right",
    "Pico.UartFmt.gd_wrong",
    "Pico.UartFmt.stm_fmt",
    "Pico.UartFmt.stm_refuses_iff",
    "Pico.UartFmt.stm_refused_off",
    "Pico.UartFmt.stm_wrong",
    "Pico.UartFmt.lin_fmt",
    "Pico.UartFmt.lin_refuses",
    "Pico.UartFmt.lin_wrong",
    "Pico.UartFmt.pic_fmt",
    "Pico.UartFmt.pic_right",
    "Pico.UartFmt.ra_fmt",
    "Pico.UartFmt.ra_refuses",
    "Pico.UartFmt.mc_even",
    "Pico.UartFmt.mc_fmt"
   ],
   "note": "holds in full for avr, tinyavr, renesas; per-driver conditions and refutations for the others (see DESIGN)"
  },
  {
   "property": "C84",
   "status": "partial",
   "theorems": [
    "Pico.UartPoll.write_all",
    "Pico.UartPoll.writes_all",
    "Pico.UartPoll.write_progress",
    "Pico.UartPoll.fifo_writes",
    "Pico.UartPoll.usart_writes",
    "Pico.UartPoll.fifo_progress",
    "Pico.UartPoll.reads_all",
    "Pico.UartPoll.read_len",
    "Pico.UartPoll.pl011_zero",
    "Pico.UartPoll.overrun_forever",
    "Pico.UartPoll.overrun_reached",
    "Pico.UartPoll.tiny_stuck",
    "Pico.UartPoll.tiny_ok",
    "Pico.UartPoll.write51_all",
    "Pico.UartPoll.init51_ok",
    "Pico.UartPoll.write76_all",
    "Pico.UartPoll.resume76_all",
    "Pico.UartPoll.n76_other",
    "Pico.UartPoll.lin_write",
    "Pico.UartPoll.lin_again_sent",
    "Pico.UartPoll.lin_twice",
    "Pico.UartPoll.lin_rx_lost",
    "Pico.UartPoll.lin_init_ok"
   ],
   "note": "writing holds for all drivers but linflexd and n76e003 (refuted as documented); reading holds, and goes on after an overrun or a framing error, but for renesas, pic32mx and tinyavr"
  },
  {
   "property": "C85",
   "status": "partial",
   "theorems": [
    "Pico.Wd.avr_watchdog_partial",
    "Pico.Wd.avr_interrupted",
    "Pico.Wd.tinyavr_watchdog",
    "Pico.Wd.tinyavr_window",
    "Pico.Wd.same5x_watchdog_partial",
    "Pico.Wd.same5x_again",
    "Pico.Wd.rp2040_watchdog",
    "Pico.Wd.gd32_watchdog_partial",
    "Pico.Wd.gd32_short",
    "Pico.Wd.stm32_watchdog_partial",
    "Pico.Wd.stm32_32k_partial",
    "Pico.Wd.stm32_long",
    "Pico.Wd.atmel_watchdog_partial",
    "Pico.Wd.atmel_32000",
    "Pico.Wd.atmel_late",
    "Pico.Wd.atmel_stopped",
    "Pico.Wd.sam3x_never",
    "Pico.Wd.ti_watchdog_partial",
    "Pico.Wd.ti_before",
    "Pico.Wd.ti_prescaler",
    "Pico.Wd.ti_stop",
    "Pico.Wd.ti_stopped_first",
    "Pico.Wd.pic_watchdog_partial",
    "Pico.Wd.pic_long",
    "Pico.Wd.pic_fuse",
    "Pico.Wd.pic_window_stays",
    "Pico.Wd.pic_deaf"
   ],
   "note": "tinyavr and rp2040 as asked; avr if no interrupt hits the timed sequences; same5x for a first set-up; gd32vf103, stm32h7xx, atmel_wdt, ti_f28x only in the ranges given, refuted outside; sam3x never resets; pic32mx up to 32768 ms and only if RUNDIV and the key can be written by 32-bit writes, refuted otherwise"
  },
  {
   "property": "C86",
   "status": "partial",
   "theorems": [
    "Pico.Adc.n76_kept",
    "Pico.Adc.perChan_good",
    "Pico.Adc.perChan_progress",
    "Pico.Adc.sam3x_stale",
    "Pico.Adc.sam3x_own",
    "Pico.Adc.renesas_good",
    "Pico.Adc.renesas_progress",
    "Pico.Adc.stm32_own_partial",
    "Pico.Adc.stm32_single_partial",
    "Pico.Adc.stm32_twice",
    "Pico.Adc.avr_turns_partial",
    "Pico.Adc.avr_progress",
    "Pico.Adc.tinyavr_turns_partial",
    "Pico.Adc.tinyavr_progress",
    "Pico.Adc.same5x_turns_partial",
    "Pico.Adc.same5x_progress",
    "Pico.Adc.mc9s08_turns_partial",
    "Pico.Adc.mc9s08_progress",
    "Pico.Adc.n76_turns_partial",
    "Pico.Adc.n76_progress",
    "Pico.Adc.rp2040_turns_partial",
    "Pico.Adc.rp2040_progress",
    "Pico.Adc.one_other",
    "Pico.Adc.one_other2",
    "Pico.Adc.same5x_stuck",
    "Pico.Adc.gd32_once",
    "Pico.Adc.avrFree_wrong",
    "Pico.Adc.eqadc_first"
   ],
   "note": "full for nxp_sar, atmel_afec, pic32mx, ti_type4, renesas_ra4; for one-register blocks only while the objects take turns, refuted otherwise; the rest refuted"
  },
  {
   "property": "C87",
   "status": "partial",
   "theorems": [
    "Pico.AdcScale.scale_ok",
    "Pico.AdcScale.scale_some",
    "Pico.AdcScale.phys_unique",
    "Pico.AdcScale.scale_mono",
    "Pico.AdcScale.default_raw",
    "Pico.AdcScale.default_32",
    "Pico.AdcScale.setup_last",
    "Pico.AdcScale.half_negative",
    "Pico.AdcScale.divider_zero",
    "Pico.AdcScale.mc9s08_default",
    "Pico.AdcScale.mV_overflow",
    "Pico.AdcScale.ti_units",
    "Pico.AdcScale.ti_trigger",
    "Pico.AdcScale.ti_values",
    "Pico.AdcScale.ti_count",
    "Pico.AdcScale.other_count"
   ],
   "note": "as asked when the arithmetic fits an int; refuted: upper half of 16-bit results negative, divider 0 accepted, 16-bit overflow in mV, count returned by ti_type4"
  },
  {
   "property": "C88",
   "status": "partial",
   "theorems": [
    "Pico.AdcSetup.stm_pcsel",
    "Pico.AdcSetup.stm_seq",
    "Pico.AdcSetup.stm_accepts",
    "Pico.AdcSetup.stm_smp_partial",
    "Pico.AdcSetup.stm_smp_wrong",
    "Pico.AdcSetup.gd_seq_wrong",
    "Pico.AdcSetup.af_seq",
    "Pico.AdcSetup.af_accepts",
    "Pico.AdcSetup.af_clock",
    "Pico.AdcSetup.avr_mux_partial",
    "Pico.AdcSetup.tiny_clock",
    "Pico.AdcSetup.tiny_fast",
    "Pico.AdcSetup.ra_scan",
    "Pico.AdcSetup.sar_scan",
    "Pico.AdcSetup.pic_mode_wrong",
    "Pico.AdcSetup.pic_mode_other",
    "Pico.AdcSetup.pic_trig",
    "Pico.AdcSetup.pic_trig_wrong"
   ],
   "note": "sequences as asked on stm32h7xx, atmel_afec, renesas_ra4, nxp_sar; refuted where listed in DESIGN.md"
  },
  {
   "property": "C89",
   "status": "partial",
   "theorems": [
    "Pico.SpiSetup.gd_setup",
    "Pico.SpiSetup.gd_accepts",
    "Pico.SpiSetup.pl_setup",
    "Pico.SpiSetup.pl_accepts",
    "Pico.SpiSetup.pl_refuses",
    "Pico.SpiSetup.pl_fast",
    "Pico.SpiSetup.stm_setup_partial",
    "Pico.SpiSetup.stm_accepts",
    "Pico.SpiSetup.stm_slow",
    "Pico.SpiSetup.dspi_setup_partial",
    "Pico.SpiSetup.dspi_fast",
    "Pico.SpiSetup.dspi_accepts",
    "Pico.SpiSetup.pic_setup_partial",
    "Pico.SpiSetup.pic_accepts",
    "Pico.SpiSetup.pic_fast",
    "Pico.SpiSetup.pic_slow",
    "Pico.SpiSetup.ra_setup",
    "Pico.SpiSetup.ra_accepts",
    "Pico.SpiSetup.mc_setup",
    "Pico.SpiSetup.mc_accepts",
    "Pico.SpiSetup.n76_setup_partial",
    "Pico.SpiSetup.n76_accepts",
    "Pico.SpiSetup.n76_slow",
    "Pico.SpiSetup.ch_setup_partial",
    "Pico.SpiSetup.ch_accepts",
    "Pico.SpiSetup.ch_slow",
    "Pico.SpiSetup.tiny_setup_partial",
    "Pico.SpiSetup.tiny_accepts",
    "Pico.SpiSetup.avr_setup_partial",
    "Pico.SpiSetup.avr_accepts",
    "Pico.SpiSetup.avr_slow",
    "Pico.SpiSetup.avr_refuses",
    "Pico.SpiSetup.ser_setup_partial",
    "Pico.SpiSetup.ser_accepts",
    "Pico.SpiSetup.ser_clk_wrong",
    "Pico.SpiSetup.sam_setup_partial",
    "Pico.SpiSetup.sam_accepts",
    "Pico.SpiSetup.sam_rate_wrong",
    "Pico.SpiSetup.qspi_setup_partial",
    "Pico.SpiSetup.qspi_accepts",
    "Pico.SpiSetup.qspi_rate_wrong",
    "Pico.SpiSetup.ti_setup_partial",
    "Pico.SpiSetup.ti_rate_wrong"
   ],
   "note": "full for gd32vf103, arm_pl022, renesas_ra4, mc9s08ptxx, tinyavr; in the ranges stated for the others, refuted outside"
  },
  {
   "property": "C90",
   "status": "partial",
   "theorems": [
    "Pico.SpiSetup.gd_setup",
    "Pico.SpiSetup.pl_setup",
    "Pico.SpiSetup.stm_setup_partial",
    "Pico.SpiSetup.stm_cs",
    "Pico.SpiSetup.dspi_setup_partial",
    "Pico.SpiSetup.dspi_clobber",
    "Pico.SpiSetup.dspi_cs",
    "Pico.SpiSetup.pic_setup_partial",
    "Pico.SpiSetup.pic_clk_wrong",
    "Pico.SpiSetup.ra_setup",
    "Pico.SpiSetup.ra_cs",
    "Pico.SpiSetup.mc_setup",
    "Pico.SpiSetup.n76_setup_partial",
    "Pico.SpiSetup.n76_frame",
    "Pico.SpiSetup.ch_setup_partial",
    "Pico.SpiSetup.ch_frame",
    "Pico.SpiSetup.tiny_setup_partial",
    "Pico.SpiSetup.tiny_clk_wrong",
    "Pico.SpiSetup.tiny_frame",
    "Pico.SpiSetup.avr_setup_partial",
    "Pico.SpiSetup.avr_frame",
    "Pico.SpiSetup.ser_setup_partial",
    "Pico.SpiSetup.ser_clk0",
    "Pico.SpiSetup.ser_clk_wrong",
    "Pico.SpiSetup.ser_frame",
    "Pico.SpiSetup.sam_setup_partial",
    "Pico.SpiSetup.sam_rate_wrong",
    "Pico.SpiSetup.sam_cs",
    "Pico.SpiSetup.qspi_setup_partial",
    "Pico.SpiSetup.qspi_rate_wrong",
    "Pico.SpiSetup.ti_setup_partial",
    "Pico.SpiSetup.ti_clk_wrong",
    "Pico.SpiSetup.ti_mode_alone",
    "Pico.SpiSetup.ti_clk_alone"
   ],
   "note": "full for gd32vf103, arm_pl022, stm32h7xx, renesas_ra4, mc9s08ptxx; the others with the restrictions stated, refuted otherwise"
  },
  {
   "property": "C91",
   "status": "partial",
   "theorems": [
    "Pico.Dma.wanted_copies",
    "Pico.Dma.wanted_fills",
    "Pico.Dma.sample_copies",
    "Pico.Dma.Rp.setup_moves",
    "Pico.Dma.Rp.xfer_moves",
    "Pico.Dma.Rp.xfer_restarts",
    "Pico.Dma.Rp.restart_sample",
    "Pico.Dma.Rp.moves_sample",
    "Pico.Dma.Rp.accepted_iff",
    "Pico.Dma.Gd.accepted_iff",
    "Pico.Dma.Gd.setup_moves",
    "Pico.Dma.Gd.word_reserved",
    "Pico.Dma.Gd.truncated",
    "Pico.Dma.Gd.moves_sample",
    "Pico.Dma.St.setup_moves",
    "Pico.Dma.St.periph_step_four",
    "Pico.Dma.St.sizes_not_refused",
    "Pico.Dma.St.moves_sample",
    "Pico.Dma.Sa.setup_moves",
    "Pico.Dma.Sa.remainder_shifts",
    "Pico.Dma.Sa.moves_sample",
    "Pico.Dma.Ti.setup_moves_partial",
    "Pico.Dma.Ti.empty_moves",
    "Pico.Dma.Ti.moves_sample",
    "Pico.Dma.Ed.xfer_moves",
    "Pico.Dma.Ed.setup_moves",
    "Pico.Dma.Ed.remainder_nothing",
    "Pico.Dma.Ed.sample_fits",
    "Pico.Dma.Ed.moves_sample"
   ],
   "note": "full for rp2040 set-ups and for the sizes and counts stated elsewhere; refuted outside"
  },
  {
   "property": "C92",
   "status": "partial",
   "theorems": [
    "Pico.Dma.Rp.setup_moves",
    "Pico.Dma.Rp.xfer_moves",
    "Pico.Dma.Rp.setup_after_xfer_unpaced",
    "Pico.Dma.Rp.init_idle",
    "Pico.Dma.Gd.setup_moves",
    "Pico.Dma.Gd.xfer_never_starts",
    "Pico.Dma.St.setup_moves",
    "Pico.Dma.St.xfer_never_starts",
    "Pico.Dma.St.circ_lost",
    "Pico.Dma.Sa.setup_moves",
    "Pico.Dma.Sa.xfer_one_unit",
    "Pico.Dma.Sa.xfer_single",
    "Pico.Dma.Ti.setup_moves_partial",
    "Pico.Dma.Ti.xfer_never_starts",
    "Pico.Dma.Ed.request_moves_all",
    "Pico.Dma.Ed.request_again",
    "Pico.Dma.Ed.xfer_moves",
    "Pico.Dma.Ed.xfer_busy"
   ],
   "note": "set-ups as asked for 5 drivers; dma_xfer as asked for rp2040 and nxp_edma; the rest refuted"
  },
  {
   "property": "C93",
   "status": "partial",
   "theorems": [
    "Pico.Dma.Rp.setup_done",
    "Pico.Dma.Rp.xfer_done",
    "Pico.Dma.Rp.done_idle",
    "Pico.Dma.Gd.setup_done",
    "Pico.Dma.St.setup_done",
    "Pico.Dma.St.empty_never_done",
    "Pico.Dma.Sa.setup_done",
    "Pico.Dma.Ti.done_kills",
    "Pico.Dma.Ti.done_after_first",
    "Pico.Dma.Ed.done_too_early"
   ],
   "note": "full for rp2040, gd32vf103, same5x; stm32h7xx except empty transfers; refuted for ti_f28x and nxp_edma"
  },
  {
   "property": "C94",
   "status": "partial",
   "theorems": [
    "Pico.Mux.Drv.run_frame",
    "Pico.Mux.Drv.last_wins",
    "Pico.Mux.Stm.serves",
    "Pico.Mux.Stm.keeps",
    "Pico.Mux.Cnf.gd_serves",
    "Pico.Mux.Cnf.gd_speed",
    "Pico.Mux.Cnf.f10_serves",
    "Pico.Mux.Cnf.ch_serves",
    "Pico.Mux.Rp.serves",
    "Pico.Mux.Rp.override_does",
    "Pico.Mux.Rp.drive_does",
    "Pico.Mux.Rp.pull_lost",
    "Pico.Mux.Siul2.others",
    "Pico.Mux.Siul2.analog_does",
    "Pico.Mux.Siul2.pull_does",
    "Pico.Mux.Siul2.output_does_partial",
    "Pico.Mux.Siul2.output_residue",
    "Pico.Mux.Siul2.input_does_partial",
    "Pico.Mux.Siul2.input_residue",
    "Pico.Mux.Siul2.refuses",
    "Pico.Mux.Siu.serves",
    "Pico.Mux.Siu.keeps",
    "Pico.Mux.Siu.muxsel_does",
    "Pico.Mux.Siu.muxsel_refuses",
    "Pico.Mux.Pic.serves",
    "Pico.Mux.Pic.keeps",
    "Pico.Mux.Pio.serves",
    "Pico.Mux.Pio.keeps",
    "Pico.Mux.Pio.serves3",
    "Pico.Mux.Avr.serves",
    "Pico.Mux.Avr.output_level",
    "Pico.Mux.Avr.input_pull",
    "Pico.Mux.Mc.serves",
    "Pico.Mux.Mc.keeps",
    "Pico.Mux.Stm8.serves",
    "Pico.Mux.Tiny.serves",
    "Pico.Mux.Tiny.keeps",
    "Pico.Mux.Tiny.alt_does",
    "Pico.Mux.Sa.func_does",
    "Pico.Mux.Sa.others",
    "Pico.Mux.Sa.refuses",
    "Pico.Mux.Sa.gpio_does_partial",
    "Pico.Mux.Sa.gpio_keeps_func",
    "Pico.Mux.Sa.gpio_input_off",
    "Pico.Mux.Sa.pulls_alike",
    "Pico.Mux.Ti.serves",
    "Pico.Mux.Ti.keeps",
    "Pico.Mux.Ti.qsel_does",
    "Pico.Mux.Ra.serves",
    "Pico.Mux.Ra.other_ports",
    "Pico.Mux.Ra.protected_after",
    "Pico.Mux.Ra.pull_lost",
    "Pico.Mux.Two.mode_does",
    "Pico.Mux.Two.refuses",
    "Pico.Mux.Two.port2_nothing"
   ],
   "note": "full for stm32, gd32vf103, ch32, nxp_siu, pic32mx, atmel pio, avr, tinyavr, mc9s08, stm8, ti_f28x; the others with the restrictions stated, refuted otherwise"
  },
  {
   "property": "C95",
   "status": "partial",
   "theorems": [
    "Pico.Clock.Rp.freq_partial",
    "Pico.Clock.Rp.sample",
    "Pico.Clock.Rp.accepts",
    "Pico.Clock.Rp.pll_right",
    "Pico.Clock.Rp.pll_133",
    "Pico.Clock.Rp.pll_overflow",
    "Pico.Clock.Rp.rtc_wrong",
    "Pico.Clock.Rp.init_off",
    "Pico.Clock.Gd.buses",
    "Pico.Clock.Gd.freq_partial",
    "Pico.Clock.Gd.pll_found",
    "Pico.Clock.Gd.pll_partial",
    "Pico.Clock.Gd.sample_108",
    "Pico.Clock.Gd.pll_wrong",
    "Pico.Clock.Gd.irc_wrong",
    "Pico.Clock.Gd.adc_wrong",
    "Pico.Clock.Tiny.freq_right",
    "Pico.Clock.Tiny.sample",
    "Pico.Clock.Tiny.locked_wrong",
    "Pico.Clock.F28.freq_partial",
    "Pico.Clock.F28.sample",
    "Pico.Clock.F28.div3_wrong",
    "Pico.Clock.F28.intosc_stale",
    "Pico.Clock.Stm8.freq_right",
    "Pico.Clock.Stm8.sample",
    "Pico.Clock.Stm8.hse_never",
    "Pico.Clock.Ra4.freq_partial",
    "Pico.Clock.Ra4.pclk_wrong",
    "Pico.Clock.Ra4.pclkd_wrong",
    "Pico.Clock.Ra4.iwdt_wrong",
    "Pico.Clock.Ra4.mosc_stopped",
    "Pico.Clock.Pmc.init_good",
    "Pico.Clock.Pmc.freq_partial",
    "Pico.Clock.Pmc.pck_right",
    "Pico.Clock.Pmc.sample",
    "Pico.Clock.Pmc.upll_stale",
    "Pico.Clock.H7.freq_partial",
    "Pico.Clock.H7.sample",
    "Pico.Clock.H7.divm_rounds",
    "Pico.Clock.H7.hse_stale",
    "Pico.Clock.H7.csi_off",
    "Pico.Clock.H7.vco_low",
    "Pico.Clock.S5.freq_partial",
    "Pico.Clock.S5.sample",
    "Pico.Clock.S5.dpll_wrong",
    "Pico.Clock.S5.div_wrong",
    "Pico.Clock.S5.stale",
    "Pico.Clock.S5.ref_ignored",
    "Pico.Clock.S5.div_zero",
    "Pico.Clock.Pic.freq_partial",
    "Pico.Clock.Pic.sample",
    "Pico.Clock.Pic.pending",
    "Pico.Clock.Pic.early_fails",
    "Pico.Clock.Pic.pll_rounds",
    "Pico.Clock.Pic.pb_right",
    "Pico.Clock.Pic.pb_stale",
    "Pico.Clock.Pic.pb_zero",
    "Pico.Clock.Pic.pb_128",
    "Pico.Clock.Sam.freq_partial",
    "Pico.Clock.Sam.mck_real",
    "Pico.Clock.Sam.sample",
    "Pico.Clock.Sam.rounds",
    "Pico.Clock.Sam.no_wait",
    "Pico.Clock.Sam.no_wait_sample",
    "Pico.Clock.Sam.periph_stale",
    "Pico.Clock.Nu.freq_partial",
    "Pico.Clock.Nu.sample",
    "Pico.Clock.Nu.trim_wrong",
    "Pico.Clock.Nu.trim_sample",
    "Pico.Clock.Nu.hirc24_stays",
    "Pico.Clock.Nu.hirc_off",
    "Pico.Clock.Cy.init_sets",
    "Pico.Clock.Cy.never_told",
    "Pico.Clock.Mpc.freq_partial",
    "Pico.Clock.Mpc.sample",
    "Pico.Clock.Mpc.s40_wrong",
    "Pico.Clock.Mpc.s40_sample",
    "Pico.Clock.Mpc.firc_stays",
    "Pico.Clock.Mpc.firc_sample",
    "Pico.Clock.Mpc.pll_wraps",
    "Pico.Clock.Mpc.disable_undef",
    "Pico.Clock.Mpc.disable_sample",
    "Pico.Clock.Siu.freq_partial",
    "Pico.Clock.Siu.usual_exact",
    "Pico.Clock.Siu.sample",
    "Pico.Clock.Siu.rounds",
    "Pico.Clock.Siu.locked_fails",
    "Pico.Clock.Siu.unlocked_passes",
    "Pico.Clock.Siu.phi1_four",
    "Pico.Clock.Ch.freq_partial",
    "Pico.Clock.Ch.sample",
    "Pico.Clock.Ch.iwdg_wrong",
    "Pico.Clock.Ch5.record_partial",
    "Pico.Clock.Ch5.sample",
    "Pico.Clock.Ch5.never_told",
    "Pico.Clock.Ch5.xt_wrong",
    "Pico.Clock.Ch5.int_stays",
    "Pico.Clock.Lg.freq_right",
    "Pico.Clock.Lg.sample",
    "Pico.Clock.Lg.ps_ignored",
    "Pico.Clock.Mc9.fei_makes",
    "Pico.Clock.Mc9.fei_partial",
    "Pico.Clock.Mc9.fbi_partial",
    "Pico.Clock.Mc9.sample",
    "Pico.Clock.Mc9.fei_steps",
    "Pico.Clock.Mc9.fee_wrong",
    "Pico.Clock.Mc9.fee_sample",
    "Pico.Clock.Mc9.fbe_stale",
    "Pico.Clock.Stc.freq_partial",
    "Pico.Clock.Stc.brt_wrong",
    "Pico.Clock.Stc.sample",
    "Pico.Clock.F1.freq_partial",
    "Pico.Clock.F1.sample",
    "Pico.Clock.F1.apb_wrong",
    "Pico.Clock.F1.adc_wrong",
    "Pico.Clock.F1.tim_wrong",
    "Pico.Clock.F1.usb_wrong",
    "Pico.Clock.F1.pll_stays",
    "Pico.Clock.F4.freq_partial",
    "Pico.Clock.F4.sample",
    "Pico.Clock.F4.apb_wrong",
    "Pico.Clock.F4.usb_wrong",
    "Pico.Clock.F4.rounds",
    "Pico.Clock.F4.pll_stays",
    "Pico.Clock.F4.slow_undef",
    "Pico.Clock.L4.freq_partial",
    "Pico.Clock.L4.sample",
    "Pico.Clock.L4.apb_wrong",
    "Pico.Clock.L4.msi_stale",
    "Pico.Clock.L4.hsi_off",
    "Pico.Clock.L4.rounds",
    "Pico.Clock.L4.pll_stays",
    "Pico.Clock.L4.misses",
    "Pico.Clock.L4.slow_undef"
   ],
   "note": "full for tinyavr (from an unlocked controller), stm8 and lgt8fx8p; the others under the conditions stated, refuted outside them"
  },
  {
   "property": "C96",
   "status": "partial",
   "theorems": [
    "Pico.Clock.Rp.enable_does",
    "Pico.Clock.Rp.disable_does",
    "Pico.Clock.Rp.gates_accepted",
    "Pico.Clock.Gd.enable_does",
    "Pico.Clock.Gd.disable_does",
    "Pico.Clock.Gd.gates_accepted",
    "Pico.Clock.F28.enable_does",
    "Pico.Clock.F28.disable_does",
    "Pico.Clock.Stm8.enable_does",
    "Pico.Clock.Stm8.disable_does",
    "Pico.Clock.Ra4.start_does",
    "Pico.Clock.Ra4.stop_does",
    "Pico.Clock.Ra4.gates_accepted",
    "Pico.Clock.Pmc.enable_partial",
    "Pico.Clock.Pmc.disable_partial",
    "Pico.Clock.Pmc.pid_wrong",
    "Pico.Clock.Pmc.pck_runs",
    "Pico.Clock.H7.enable_does",
    "Pico.Clock.H7.disable_does",
    "Pico.Clock.H7.gates_accepted",
    "Pico.Clock.H7.sai4_wrong",
    "Pico.Clock.H7.ker_does",
    "Pico.Clock.S5.enable_does",
    "Pico.Clock.S5.disable_does",
    "Pico.Clock.S5.gates_accepted",
    "Pico.Clock.S5.channel_does",
    "Pico.Clock.S5.channel_stops",
    "Pico.Clock.Pic.pb_does",
    "Pico.Clock.Pic.pb_stops",
    "Pico.Clock.Pic.pb_accepted",
    "Pico.Clock.Sam.enable_partial",
    "Pico.Clock.Sam.disable_partial",
    "Pico.Clock.Sam.gates_accepted",
    "Pico.Clock.Sam.enable_nothing",
    "Pico.Clock.Mpc.run_does",
    "Pico.Clock.Mpc.lp_does",
    "Pico.Clock.Mpc.pc_does",
    "Pico.Clock.Mpc.gates_accepted",
    "Pico.Clock.Mpc.pc_negative",
    "Pico.Clock.Ch.enable_does",
    "Pico.Clock.Ch.disable_does",
    "Pico.Clock.Ch.gates_accepted",
    "Pico.Clock.F1.enable_partial",
    "Pico.Clock.F1.disable_partial",
    "Pico.Clock.F1.gates_accepted",
    "Pico.Clock.F1.sdio_wrong",
    "Pico.Clock.F4.enable_does",
    "Pico.Clock.F4.disable_does",
    "Pico.Clock.F4.gates_accepted",
    "Pico.Clock.L4.enable_does",
    "Pico.Clock.L4.disable_does",
    "Pico.Clock.L4.gates_accepted"
   ],
   "note": "full for rp2040, gd32vf103, ti_f28x, stm8, renesas_ra4, same5x, pic32mx, mpc574xx, ch32v003, stm32f401x, stm32l4x; atmel_pmc for identifiers under 64, stm32h7xx but SAI4, stm32f10xxx but SDIO, refuted there"
  },
  {
   "property": "C97",
   "status": "proved",
   "theorems": [
    "Pico.Soft.mul_right",
    "Pico.Soft.udiv_right",
    "Pico.Soft.umod_right",
    "Pico.Soft.div_right",
    "Pico.Soft.mod_right",
    "Pico.Soft.returns_unique",
    "Pico.Soft.sample"
   ],
   "note": "__mulsi3, __divsi3, __udivsi3, __modsi3, __umodsi3 for all operands"
  },
  {
   "property": "C98",
   "status": "partial",
   "theorems": [
    "Pico.Startup.boot_right_partial",
    "Pico.Startup.sample",
    "Pico.Startup.sbss_left",
    "Pico.Startup.sbss_address",
    "Pico.Startup.sbss_sample",
    "Pico.Startup8.boot_right",
    "Pico.Startup8.sample_placed",
    "Pico.Startup8.boots"
   ],
   "note": "full but for small zero data, which only the PIC32's startup clears: refuted for RISC-V and PowerPC"
  },
  {
   "property": "C99",
   "status": "partial",
   "theorems": [
    "Pico.TwiRate.avr_rate",
    "Pico.TwiRate.avr_refuses",
    "Pico.TwiRate.renesas_rate",
    "Pico.TwiRate.renesas_accepts",
    "Pico.TwiRate.dw_rate_partial",
    "Pico.TwiRate.dw_low",
    "Pico.TwiRate.sercom_high_partial",
    "Pico.TwiRate.sercom_high_fast",
    "Pico.TwiRate.sercom_wrong",
    "Pico.TwiRate.sercom_sample",
    "Pico.TwiRate.sam_rate_partial",
    "Pico.TwiRate.sam_fast",
    "Pico.TwiRate.sam_faster",
    "Pico.TwiRate.sam_refused",
    "Pico.TwiRate.sam_sample",
    "Pico.TwiRate.ti_rate_partial",
    "Pico.TwiRate.ti_module",
    "Pico.TwiRate.ti_low",
    "Pico.TwiRate.ti_sample",
    "Pico.TwiRate.gd_rate_partial",
    "Pico.TwiRate.gd_fast",
    "Pico.TwiRate.gd_sample",
    "Pico.TwiRate.gd_clk",
    "Pico.TwiRate.gd_clk_stale",
    "Pico.TwiRate.mc9_refused",
    "Pico.TwiRate.mc9_wrong",
    "Pico.TwiRate.mc9_sample",
    "Pico.TwiRate.n76_rate_partial",
    "Pico.TwiRate.n76_fast",
    "Pico.TwiRate.nxp_rate_partial",
    "Pico.TwiRate.nxp_slow",
    "Pico.TwiRate.nxp_sample",
    "Pico.TwiRate.stm_ends",
    "Pico.TwiRate.stm_rate_partial",
    "Pico.TwiRate.stm_low",
    "Pico.TwiRate.stm_accepts",
    "Pico.TwiRate.stm_sample",
    "Pico.TwiRate.pic32_rate_partial",
    "Pico.TwiRate.pic32_near_partial",
    "Pico.TwiRate.pic32_fast",
    "Pico.TwiRate.pic32_slow",
    "Pico.TwiRate.pic32_sample"
   ],
   "note": "full for AVR and RA4; the others are proved where true and refuted elsewhere"
  },
  {
   "property": "C100",
   "status": "partial",
   "theorems": [
    "Pico.Fram.fram_avr_partial",
    "Pico.Fram.fram_avr_call",
    "Pico.Fram.fram_avr_ends",
    "Pico.Fram.fram_sample",
    "Pico.Fram.fram_absent",
    "Pico.Fram.fram_past_end",
    "Pico.Fram.fram_no_stop",
    "Pico.Fram.fram_dw_garbage"
   ],
   "note": "full over the AVR TWI driver for ranges inside a chip that answers; refuted outside"
  },
  {
   "property": "C101",
   "status": "partial",
   "theorems": [
    "Pico.Spi1.avr_faithful",
    "Pico.Spi1.ch552_faithful",
    "Pico.Spi1.n76_faithful_partial",
    "Pico.Spi1.complete",
    "Pico.Spi1.ends",
    "Pico.Spi1.sample_avr",
    "Pico.Spi1.sample_ch552",
    "Pico.Spi1.n76_twice",
    "Pico.Spi1.s08_twice",
    "Pico.Spi1.s08_twice_quiet",
    "Pico.Spi1.Usart.faithful",
    "Pico.Spi1.Usart.complete",
    "Pico.Spi1.Usart.ends",
    "Pico.Spi1.Usart.sample",
    "Pico.Spi1.Irq.faithful",
    "Pico.Spi1.Irq.complete",
    "Pico.Spi1.Irq.ends",
    "Pico.Spi1.Irq.select",
    "Pico.Spi1.Irq.one_select_partial",
    "Pico.Spi1.Irq.split_select",
    "Pico.Spi1.Irq.small_never",
    "Pico.Spi1.Irq.sample"
   ],
   "note": "full for avr (both modes), avr_usart and ch552; n76e003 only without interruption, mc9s08ptxx refuted; the selection of the peer only for messages that fit the FIFO"
  },
  {
   "property": "C102",
   "status": "partial",
   "theorems": [
    "Pico.Ipwm.edge_iff",
    "Pico.Ipwm.emios_period_partial",
    "Pico.Ipwm.tc_period_partial",
    "Pico.Ipwm.period_answers",
    "Pico.Ipwm.emios_period_wrong",
    "Pico.Ipwm.tc_period_wrong",
    "Pico.Ipwm.highs_mul",
    "Pico.Ipwm.edges_bounds",
    "Pico.Ipwm.emios_duty_partial",
    "Pico.Ipwm.emios_duty_waits",
    "Pico.Ipwm.emios_duty_wrong",
    "Pico.Ipwm.tc_duty_partial",
    "Pico.Ipwm.tc_duty_wrong",
    "Pico.Ipwm.rp_period_partial",
    "Pico.Ipwm.rp_period_wrong",
    "Pico.Ipwm.rp_duty_partial",
    "Pico.Ipwm.rp_duty_wrong"
   ],
   "note": "the conditions are limits of the code, each shown to be needed by a refutation"
  },
  {
   "property": "C103",
   "status": "proved",
   "theorems": [
    "Pico.Core1.passed_right",
    "Pico.Core1.done_idles",
    "Pico.Core1.only_right",
    "Pico.Core1.wrong_if_not_clean",
    "Pico.Core1.ends",
    "Pico.Core1.no_deadlock",
    "Pico.Core1.lost_forever",
    "Pico.Core1.lost_reachable",
    "Pico.Core1.stackOf_eq"
   ],
   "note": "the three words must not be 0: a 0 restarts the boot ROM"
  },
  {
   "property": "C104",
   "status": "partial",
   "theorems": [
    "Pico.SpiDma.wire_seen",
    "Pico.SpiDma.done_right_partial",
    "Pico.SpiDma.ends",
    "Pico.SpiDma.quiet",
    "Pico.SpiDma.lost_stuck",
    "Pico.SpiDma.extra_lost",
    "Pico.SpiDma.long_lost"
   ],
   "note": "whole frames and at most 2^w - 1 of them; refuted otherwise (extra_lost, long_lost)"
  },
  {
   "property": "C105",
   "status": "partial",
   "theorems": [
    "Pico.Sched.watermarks_are_durations",
    "Pico.Sched.idle_first_sample",
    "Pico.SMP.smp_measured_against",
    "Pico.SMP.smp_sample_exact_partial",
    "Pico.SMP.smp_sample_wrong",
    "Pico.SMP.watermark_takes",
    "Pico.Sched.watermark_takes"
   ],
   "note": "single core: full (the first sample of the idle task is a whole period); SMP: refuted when another core ticks meanwhile"
  },
  {
   "property": "C106",
   "status": "proved",
   "theorems": [
    "Pico.SMP.smp_start_orders_tasks",
    "Pico.SMP.smp_shared_priority_turns",
    "Pico.SMP.smp_one_turn_at_a_time",
    "Pico.SMP.smp_sharers_not_together",
    "Pico.SMP.smp_idles_though_ready"
   ],
   "note": ""
  },
  {
   "property": "C107",
   "status": "proved",
   "theorems": [
    "Pico.Noncoh.stack_current",
    "Pico.Noncoh.sched_current_any",
    "Pico.Noncoh.outside_lags",
    "Pico.Noncoh.outside_current",
    "Pico.Noncoh.outside_not_current",
    "Pico.Noncoh.writeback_loses"
   ],
   "note": "the lock is a guard (C64); what a pass computes is left open here (C05-C14, C106)"
  },
  {
   "property": "C108",
   "status": "partial",
   "theorems": [
    "Pico.PwmRun.pwm_right_partial",
    "Pico.PwmRun.pic32_exact",
    "Pico.PwmRun.pic32_right_partial",
    "Pico.PwmRun.pic32_wrong",
    "Pico.PwmRun.together_exact",
    "Pico.PwmRun.together_right_partial",
    "Pico.PwmRun.together_wrong",
    "Pico.PwmRun.stm32_exact",
    "Pico.PwmRun.stm32_wrong",
    "Pico.PwmRun.sam_never_stops",
    "Pico.PwmRun.sam_start",
    "Pico.PwmRun.sam_wrong",
    "Pico.PwmRun.ti_exact",
    "Pico.PwmRun.ti_wrong",
    "Pico.PwmRun.pwm_tasks_partial",
    "Pico.PwmRun.pwm_lost"
   ],
   "note": "what is missing is false of the code and refuted; what the bits do is taken from the reference manuals; SYNCBUSY waits are left out"
  },
  {
   "property": "C109",
   "status": "proved",
   "theorems": [
    "Pico.Sched.tick_period_descends",
    "Pico.Sched.eligible_is_served",
    "Pico.Sched.idle_means_served",
    "Pico.Lite.lite_tick_period_descends",
    "Pico.Lite.lite_ready_is_served",
    "Pico.SMP.smp_waiting_not_passed_over"
   ],
   "note": "tasks that become ready because another core ticked may find a core idling until its own tick (SMP)"
  },
  {
   "property": "C110",
   "status": "partial",
   "theorems": [
    "Pico.MtxCache.exclusive",
    "Pico.MtxCache.stalled_astray",
    "Pico.MtxCache.reentrant",
    "Pico.MtxCache.owner_stays",
    "Pico.MtxCache.owned_exactly",
    "Pico.MtxCache.free_again",
    "Pico.MtxCache.leaks",
    "Pico.MtxCache.two_owners"
   ],
   "note": "holds if tasks do not change cores inside a call (exclusive, stalled_astray, reentrant) and the compare-and-swap drops the line (owned_exactly, free_again); false otherwise (two_owners, leaks); count is not bounded"
  },
  {
   "property": "C111",
   "status": "partial",
   "theorems": [
    "Pico.FtxCache.exclusive",
    "Pico.FtxCache.owner_not_stalled",
    "Pico.FtxCache.dead_keeps",
    "Pico.FtxCache.stalled_when_moved",
    "Pico.FtxCache.stalled_when_ignored"
   ],
   "note": "exclusion holds always; unlock of the owner holds if it stays on its core while it has the futex (owner_not_stalled), false otherwise"
  },
  {
   "property": "C112",
   "status": "partial",
   "theorems": [
    "Pico.C55.c55_write",
    "Pico.C55.c55_write_completes",
    "Pico.C55.c55_write_uninitialised",
    "Pico.C55.fits_577x",
    "Pico.C55.fits_574x",
    "Pico.C55.c55_erase_partial",
    "Pico.C55.c55_erase_ends",
    "Pico.C55.c55_offset_refused",
    "Pico.C55.c55_offset_wrong",
    "Pico.C55.c55_lock_partial",
    "Pico.C55.c55_unlock_partial",
    "Pico.C55.c55_blankcheck_partial",
    "Pico.C55.sane_574x",
    "Pico.C55.sane_577x",
    "Pico.C55.c55_blankcheck_577x",
    "Pico.C55.Sam3x.sam3x_init_fails",
    "Pico.C55.Sam3x.sam3x_never_ends"
   ],
   "note": "writing holds; erasing, locking and unlocking hold of block numbers, false of offsets (c55_offset_refused, c55_offset_wrong); state not initialised (c55_write_uninitialised); blankcheck false for 3 blocks of the MPC577x; sam3x unusable (sam3x_init_fails, sam3x_never_ends)"
  },
  {
   "property": "C113",
   "status": "partial",
   "theorems": [
    "Pico.W1.w1_write",
    "Pico.W1.w1_write_ends",
    "Pico.W1.w1_write_error_lost",
    "Pico.W1.w1_zero_short",
    "Pico.W1.w1_reset_partial",
    "Pico.W1.w1_reset_nobody",
    "Pico.W1.w1_reset_no_pulse",
    "Pico.W1.w1_reset_no_pulse_reached",
    "Pico.W1.w1_reset_keeps",
    "Pico.W1.w1_write_after",
    "Pico.W1.w1_read_partial",
    "Pico.W1.w1_read_sticks",
    "Pico.W1.w1_read_deaf",
    "Pico.W1.w1_read_echoes"
   ],
   "note": "writing holds bit for bit (w1_write, w1_write_ends); its 0 slots are too short; reset holds from a fresh driver; reading is refuted (w1_read_deaf, w1_read_sticks, w1_read_echoes)"
  },
  {
   "property": "C114",
   "status": "partial",
   "theorems": [
    "Pico.Lin.lin_write_partial",
    "Pico.Lin.lin_write_ends",
    "Pico.Lin.lin_write_mixes",
    "Pico.Lin.lin_write_wrong_id",
    "Pico.Lin.lin_write_or",
    "Pico.Lin.lin_read_master",
    "Pico.Lin.lin_read_ends",
    "Pico.Lin.lin_write_slave",
    "Pico.Lin.lin_read_slave",
    "Pico.Lin.lin_read_slave_repeats",
    "Pico.Lin.lin_rate_partial",
    "Pico.Lin.lin_rate_short",
    "Pico.Lin.lin_rate_10417"
   ],
   "note": "lin_read holds (lin_read_master); lin_write holds for a first frame or one with the id and length of those before (lin_write_partial), false otherwise (lin_write_or); rate false where the fraction rounds to 16 (lin_rate_short)"
  },
  {
   "property": "C115",
   "status": "partial",
   "theorems": [
    "Pico.Dmasg.dmasg_xfer_partial",
    "Pico.Dmasg.dmasg_xfer_ends",
    "Pico.Dmasg.dmasg_xfer_busy",
    "Pico.Dmasg.dmasg_done_early",
    "Pico.Dmasg.dmasg_xfer_lost",
    "Pico.Dmasg.dmasg_setup_rounds",
    "Pico.Dmasg.rounds_same",
    "Pico.Dmasg.next_same",
    "Pico.Dmasg.dmasg_wanted_copies",
    "Pico.Dmasg.dmasg_size_wrong",
    "Pico.Dmasg.dmasg_offset_cut",
    "Pico.Dmasg.dmasg_remainder",
    "Pico.Dmasg.wf_reachable",
    "Pico.Dmasg.dmasg_setup_serves",
    "Pico.Dmasg.dmasg_setup_waits",
    "Pico.Dmasg.dmasg_refused"
   ],
   "note": "holds from the moment the engine has picked the channel (dmasg_xfer_partial); false before (dmasg_done_early, dmasg_xfer_lost) and for descriptors the controller cannot do (dmasg_size_wrong, dmasg_offset_cut, dmasg_remainder)"
  },
  {
   "property": "C116",
   "status": "partial",
   "theorems": [
    "Pico.TwiSam.twi_write_partial",
    "Pico.TwiSam.twi_write_ends_partial",
    "Pico.TwiSam.twi_read_one",
    "Pico.TwiSam.twi_read_one_ends",
    "Pico.TwiSam.twi_read_one_more",
    "Pico.TwiSam.twi_read_stale",
    "Pico.TwiSam.twi_read_lost",
    "Pico.TwiSam.twi_write_nack",
    "Pico.TwiSam.twi_write_absent",
    "Pico.TwiSam.twi_write_one_stuck",
    "Pico.TwiSam.twi_write_cut",
    "Pico.TwiSam.twi_write_stop_first",
    "Pico.TwiSam.twi_read_order",
    "Pico.TwiSam.twi_nack_gives_up"
   ],
   "note": "holds for writes that are taken, with no step of the bus between TWI_CR and TWI_THR (twi_write_partial, twi_write_ends_partial), and for reads of one byte (twi_read_one); false otherwise (the refutations)"
  },
  {
   "property": "C117",
   "status": "partial",
   "theorems": [
    "Pico.TwiF28.twi_write_partial",
    "Pico.TwiF28.twi_write_ends_partial",
    "Pico.TwiF28.twi_write_long",
    "Pico.TwiF28.busy_again",
    "Pico.TwiF28.twi_write_absent",
    "Pico.TwiF28.twi_write_twice",
    "Pico.TwiF28.twi_read_partial",
    "Pico.TwiF28.twi_flag_stays",
    "Pico.TwiF28.twi_read_late",
    "Pico.TwiF28.twi_read_split",
    "Pico.TwiF28.reset_quiet"
   ],
   "note": "holds for writes of at most 16 bytes that are taken (twi_write_partial, twi_write_ends_partial), and for the first read after a reset of at most 16 bytes with no call during the frame (twi_read_partial); false otherwise (the refutations)"
  },
  {
   "property": "C118",
   "status": "partial",
   "theorems": [
    "Pico.TwiSercom.twi_write_partial",
    "Pico.TwiSercom.twi_write_ends_partial",
    "Pico.TwiSercom.twi_write_absent",
    "Pico.TwiSercom.twi_dead",
    "Pico.TwiSercom.twi_write_absent_dead",
    "Pico.TwiSercom.twi_write_race",
    "Pico.TwiSercom.twi_read_never"
   ],
   "note": "holds for writes that are taken (twi_write_partial, twi_write_ends_partial) and for an absent slave if the NACK is seen in time (twi_write_absent); false for every read (twi_read_never), in a race (twi_write_race), and after a NACK if STOP doesn't clear RXNACK (twi_dead)"
  },
  {
   "property": "C119",
   "status": "partial",
   "theorems": [
    "Pico.TwiPic.twi_write_partial",
    "Pico.TwiPic.twi_write_ends_partial",
    "Pico.TwiPic.twi_write_absent",
    "Pico.TwiPic.twi_write_stale",
    "Pico.TwiPic.twi_write_last_nack",
    "Pico.TwiPic.twi_write_race"
   ],
   "note": "holds for writes that are taken when the last acknowledge bit was an ACK (twi_write_partial, twi_write_ends_partial) and for an absent slave then (twi_write_absent); false after a NACK (twi_write_stale), for the last byte (twi_write_last_nack) and in a race (twi_write_race)"
  },
  {
   "property": "C120",
   "status": "partial",
   "theorems": [
    "Pico.Trng.rng_read_spec_partial",
    "Pico.Trng.rng_calls_once_partial",
    "Pico.Trng.rng_read_full_partial",
    "Pico.Trng.rng_init_spec",
    "Pico.Trng.rng_read_seed_error",
    "Pico.Trng.rng_sample"
   ],
   "note": "holds without a seed error between the reads of SR and DR (rng_read_spec_partial, rng_calls_once_partial, rng_read_full_partial); false with one (rng_read_seed_error)"
  },
  {
   "property": "C121",
   "status": "partial",
   "theorems": [
    "Pico.Can.Same.same_write_partial",
    "Pico.Can.Same.same_write_full",
    "Pico.Can.Same.same_write_spoils",
    "Pico.Can.Same.same_read_partial",
    "Pico.Can.Same.same_read_empty",
    "Pico.Can.Same.same_read_ext",
    "Pico.Can.Same.same_read_stuck",
    "Pico.Can.Same.same_accept_all",
    "Pico.Can.Same.same_accept_fits",
    "Pico.Can.Same.same_accept_kept",
    "Pico.Can.Same.same_bitrate_data",
    "Pico.Can.Same.same_bitrate_not",
    "Pico.Can.Same.same_sample",
    "Pico.Can.Same.same_met"
   ],
   "note": "holds while fewer than 32 frames wait to be sent (same_write_partial) and for frames received with 1 to 8 bytes and 11-bit identifiers (same_read_partial); false otherwise (the refutations)"
  },
  {
   "property": "C122",
   "status": "partial",
   "theorems": [
    "Pico.MiscCfg.mcfg_partial",
    "Pico.MiscCfg.mcfg_accepts",
    "Pico.MiscCfg.last_refused",
    "Pico.MiscCfg.scfg_partial",
    "Pico.MiscCfg.scfg_accepts",
    "Pico.MiscCfg.scfg_slot",
    "Pico.MiscCfg.can0_set",
    "Pico.MiscCfg.can1_set",
    "Pico.MiscCfg.dmamux_set",
    "Pico.MiscCfg.igf_set",
    "Pico.MiscCfg.igf_refused",
    "Pico.MiscCfg.igf_distinct",
    "Pico.MiscCfg.igf_layout",
    "Pico.MiscCfg.rp_init",
    "Pico.MiscCfg.rp_reset",
    "Pico.MiscCfg.rp_unreset",
    "Pico.MiscCfg.rp_refused"
   ],
   "note": "false for the last master and slave of the matrix (last_refused), for SLOT_CYCLE (scfg_slot) and for the place of the glitch filter's channels from 2 on (igf_layout); the rest holds"
  }
 ]
}