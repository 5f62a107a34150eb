# OpenPicoRTOS formal model — design

## Trusted base
* Lean 4.33.0's kernel, and the axioms `propext`, `Classical.choice`, `Quot.sound` only
  (audited by `vcheck`; no `native_decide`, no `bv_decide`, no own axiom).
* The *faithfulness* of the hand-written model: every definition cites the file and lines of
  `/repo` it models and says where it simplifies. Nothing is generated from the C text.
* The C semantics assumed: unsigned arithmetic wraps modulo the width of its type, casts to narrower
  unsigned types truncate, array accesses outside the declared bounds and division by zero are
  undefined behaviour (result `ub`, distinct from every defined result), `picoRTOS_fatal()` never
  returns (result `fatal`), `picoRTOS_dbgbreak()` continues (recorded as an output flag).
* Ticks and syscalls are atomic with respect to each other on one core (they run in the interrupt /
  supervisor-call handler with interrupts masked) and, on SMP, are serialised by the arch spin lock.
  `arch_test_and_set` / `arch_compare_and_swap` are atomic read-modify-write operations (contract of
  `picoRTOS_port.h`); everything else in the IPC objects is interleaved access by access.
* IPC and driver fifo: sequentially consistent interleaving of the individual accesses in program
  order (the hardware reordering and a compiler moving a non-volatile access across a volatile one are
  not modelled; `arch_memory_barrier` and the cache maintenance are therefore no-ops).  The atomic
  operations may fail spuriously (load-linked/store-conditional ports): the theorems hold anyway.
  A task may stop for ever at any access (superset of preemption by a more urgent task).
* Assembly: the atomic operations (C53) and the trap code (C54–C58) of the ports listed below are modelled instruction by instruction; exception entry and return of the processor follow the architecture manuals (see the comments of each port).  Not modelled: the assembly of the other ports, compiler, linker, hardware.

## Common conventions
`Res α = ok a | fatal | ub` is the result monad of every modelled C function.
A configuration `Cfg` carries `CONFIG_TASK_COUNT` (N), the widths of `picoRTOS_tick_t`,
`picoRTOS_priority_t`/`picoRTOS_pid_t`, `size_t`, `picoRTOS_cycles_t`, and `CONFIG_DEADLOCK_COUNT`, so each theorem covers every architecture
(8051/avr: 16-bit tick, 8-bit pid; c2000: 32/16; others 32/32; pthread 64).  The tick is a
`BitVec tw`, so wrap-around is exact.  `Cfg.WF` = the pid type can represent N+1 and N>0.

Reachable states are those obtained by `picoRTOS_init`, any list of successful
`picoRTOS_add_task`, `picoRTOS_start`, then any list of events (tick, sleep, sleep_until, kill,
postpone, each with arbitrary stack pointer and cycle-counter readings) none of which stalled.

## Modules (lean/Verif)
| module | models |
|---|---|
| `Sched/Model` | scheduler/picoRTOS.c |
| `Sched/Spec` | independent vocabulary (eligible, most urgent, turn, history, ticks in a history) |
| `Sched/Lemmas*` | helper lemmas, invariant |
| `Sched/Props*` | theorems C01–C20, C22 |
| `Sched/AbsSpec`, `Sched/Refine` | specification machine written without the code's data structures; equality of all traces (C47) |
| `SMP/AbsSpec`, `SMP/Refine` | the same on several cores (C48) |
| `SMP/Api`, `SMP/Prio` | the rest of the SMP API (C49–C52) |
| `TaskInit`, `Delay` | picoRTOS_task_init + cache alignment, delay macros |
| `SMP/*` | scheduler/picoRTOS-SMP.c |
| `Lite/*` | scheduler/picoRTOS-lite.c |
| `Ipc/Futex*`, `Ipc/Mutex*`, `Ipc/Cond*` | ipc/picoRTOS_futex.c, picoRTOS_mutex.c, picoRTOS_cond.c |
| `Ipc/Queue*`, `Ipc/Ring`, `Ipc/Count` | ipc/picoRTOS_queue.c, .h (sequential and concurrent use) |
| `Arch/Cas`, `Arch/CasLock` | arch_compare_and_swap / arch_test_and_set of every port (C53) |
| `Arch/CtxSpec`, `Arch/Ctx` | what a port owes to tasks across a context switch, any number of tasks, any history (C54) |
| `Arch/Word`, `Arch/WordPort` | a 32-bit machine for the trap code; ports with a frame of fixed layout |
| `Arch/TickSoft` | tick of the stc12, reloaded by software (C58) |
| `Arch/RiscV*`, `Arch/Mips*`, `Arch/Ppc*`, `Arch/Arm*` | trap code of rv32imac, rv32ec, m51xx, e200, armv6-m, armv7-m, armv7e-m (C54–C58) |
| `Arch/Byte`, `Arch/Avr*`, `Arch/Stm8*`, `Arch/Hcs08*` | an 8-bit machine with a byte stack; trap code of avr, stm8, hcs08 (C54–C57) |
| `Arch/Intc*` | arch_enable_interrupt / arch_disable_interrupt and their SMP variants, with the interrupt controllers they program (C59) |
| `Arch/Cache`, `Arch/MipsCache` | write-back data cache and the range loops of arch_flush_dcache / arch_invalidate_dcache of every port with a cache (C60) |
| `Arch/Counter` | arch_counter of every port with a timer, the register as a function of time (C61) |
| `Arch/IsrTable` | arch_register_interrupt and the tables of every port; the c28x dispatcher (C62, C57) |
| `Arch/Mask` | arch_suspend, arch_resume, arch_init of every port as operations on the mask (C63) |
| `Arch/SpinLock` | arch_spin_lock / _unlock of the SMP ports, any number of cores (C64) |
| `Arch/TickPeriod` | arch_timer_init / the timer part of arch_init of every port: prescaler and reload computations (C65) |
| `Arch/Mcs51*` | trap code of 8051: one internal stack for all tasks, copied to and from external RAM (C54–C57) |
| `Arch/C28x*` | trap code of c28x: 16-bit words, stack growing up, even 32-bit accesses, context saved by the processor, FPU (C54–C57, C59) |
| `Arch/Host` | arch_TICK, arch_syscall, arch_prepare_stack, arch_start_first_task of pthread and win32 (C66, C55, C63) |
| `Drivers/Q`, `Drivers/UartTx*`, `Drivers/UartRx*` | the four interrupt-driven uart drivers over that fifo (C67, C68) |
| `Drivers/Spi*` | spi_xfer of the twelve SPI drivers that keep a balance (C69) |
| `Drivers/FlashExt*` | the two external flash drivers over a split SPI, with a model of the memory (C70) |
| `Drivers/Can*` | the four CAN drivers (and the bit timing of two staging ones): timing registers, mailboxes as frames on the bus (C71-C74) |
| `Drivers/FlashInt*` | the three internal flash drivers over a model of their controllers (C75) |
| `Drivers/Rng*` | the software generator, its step as a 32x32 matrix over GF(2) (C76) |
| `Drivers/EepromAvr*` | eeprom-avr.c over a model of the EEPROM controller (C77) |
| `Drivers/Gpio*` | all GPIO drivers as lists of register accesses, tasks interleaved (C78) |
| `Drivers/Twi*` | TWI masters: AVR (C79) and DesignWare (C80) over models of the interfaces; TwiBus is the specification |
| `Drivers/Pwm*` | PWM drivers: period and duty-cycle arithmetic of the 17 drivers (C81) |
| `Drivers/UartRate*` | UART drivers: set_baudrate of every UART driver (C82) |
| `Drivers/UartFmt*` | UART drivers: character format, bit by bit (C83) |
| `Drivers/UartPoll*` | polled UART drivers: uart_write, uart_read against a line that moves by itself (C84) |
| `Drivers/Wd*` | watchdog drivers, their registers and the counter they drive (C85) |
| `Drivers/UartTight` | theorems that seeded bugs showed to be missing: C67, C70, C82 |
| `Drivers/Adc*`, `Drivers/Field` | ADC drivers: reads by several objects of a block (C86), scaling and multiple reads (C87), channel set-up (C88); bit fields |
| `Drivers/SpiSetup*` | spi_setup of 14 drivers: rate (C89), mode, frames, role, chip select (C90) |
| `Drivers/Dma*` | 6 DMA drivers: units moved (C91), starts (C92), done (C93) |
| `Drivers/Mux*` | 17 pin multiplexers (C94) |
| `Drivers/Clock*` | clock drivers: frequencies told (C95), gates (C96) |
| `Arch/Soft*` | software multiply and divide of the ch32v003 (C97) |
| `Arch/Startup*` | startup code of the machines (C98) |
| `Drivers/TwiRate*` | bit rates of the TWI drivers (C99) |
| `Drivers/Fram*` | I2C FRAM over the AVR TWI driver (C100) |
| `Drivers/Spi1*` | spi_xfer of controllers without FIFO (C101) |
| `Drivers/Ipwm*` | ipwm_get_period, ipwm_get_duty_cycle (C102) |
| `Arch/Core1*` | arch_core_init of the RP2040 and its boot ROM (C103) |
| `Drivers/SpiDma*` | spi_xfer with two DMA channels of five drivers (C104) |
| `Sched/Clocked`, `SMP/Stats` | cycle counter readings of the schedulers (C105) |
| `SMP/Turns` | order and turns of the tasks on SMP (C106, C13) |
| `SMP/Noncoh` | cache maintenance of the SMP scheduler on non-coherent cores (C107) |
| `Drivers/PwmRun` | pwm_start, pwm_stop of 17 drivers: which outputs run (C108) |
| `Sched/Period`, `Lite/Period`, `SMP/Period` | what the tasks get between two ticks (C109) |
| `Ipc/MutexCache`, `MutexCacheProps`, `MutexCacheProps2` | a mutex on non-coherent caches (C110) |
| `Ipc/FutexCache` | a futex on non-coherent caches (C111) |
| `Drivers/C55fmc`, `C55fmcProps`, `C55fmcProps2` | internal flash of the MPC57xx and SAM3X (C112) |
| `Drivers/W1`, `W1Props` | 1-wire on a UART (C113) |
| `Drivers/Lin`, `LinProps`, `LinProps2` | LIN interface of the MPC57xx (C114) |
| `Drivers/Dmasg`, `DmasgProps`, `DmasgProps2`, `DmasgProps3` | scatter-gather DMA of the MPC57xx (C115) |
| `Drivers/TwiSam`, `TwiSamProps`, `TwiSamProps2`, `TwiSamProps3` | TWI master of the SAM3X (C116) |
| `Drivers/TwiF28`, `TwiF28Props`, `TwiF28Props2` | TWI master of the C2000 (C117) |
| `Drivers/TwiSercom`, `TwiSercomProps`, `TwiSercomProps2` | TWI master of the SERCOM (C118) |
| `Drivers/TwiPic`, `TwiPicProps` | TWI master of the PIC32MX, writes (C119) |
| `Drivers/Trng`, `TrngProps` | hardware random number generator of the STM32H7 (C120) |
| `Drivers/CanSame`, `CanSameProps` | CAN of the SAME5x (C121) |
| `Drivers/MiscCfg`, `MiscCfgProps` | bus matrix, DMAMUX, glitch filter, resets (C122) |
| `Drivers/*` | drivers/include/fifo.h and selected drivers |

## Plan per property
* C01 invariant + characterisation of the tick loop (downward scan keeps the smallest eligible pid).
* C02–C04, C06 induction over an arbitrary continuation with a countdown invariant on the wake tick.
* C05 exact theorem of what happens when late + `_partial` of the documented behaviour + witness
  that the documented behaviour fails for the first CONFIG_DEADLOCK_COUNT misses.
* C07, C09, C10, C19, C20 invariant induction over histories.
* C08 ghost-free: expected stack pointer computed from the history (last one handed over).
* C11, C12 loop invariants of insertion sort / numbering, stated with list filters (stability).
* C13 arithmetic on the truncated tick; witness of the unfair wrap.
* C14–C17 positive theorem with the exact condition, witness where the documented claim fails.
* C18 invariant: flag postponed => an eligible user task precedes the current one.
* C21, C23, C24 arithmetic for all values. C22 history sampled in the event list.
* C25–C32 same method on the multi-core state, events tagged with the core that executes them.
* C33–C36 same invariants on the lite model; simulation relation between lite and full.
* C37–C43 small-step interleaving semantics of shared-memory accesses, invariant induction;
  witnesses as explicit schedules.
* C47 forward simulation between the task table and the abstract machine of `Sched/AbsSpec` (roster = sorted table).
* C48 the same for SMP; the relation is cut in two around the choice of the next task of the core (`StRel`, `pick_rel`).
* C49, C51, C52 the single-core arguments on the multi-core state. C50 the reads of `picoRTOS_self` are separate steps with arbitrary
  histories in between; in `step` the running check of a call is evaluated together with the call (simplification, justified for pinned
  tasks by C50, and shown to be optimistic for the others by `smp_running_check_stalls`).
* C53 the routines of the ports as instruction lists of a small machine (one shared word, reservation, interrupt mask, the others act before
  each instruction); loop-free, so unfolding for symbolic words and environments; the lock-based ports as an N-caller interleaving with an invariant.
  The IPC models (C37–C43) take the contract proved here as one atomic step that may fail spuriously.
* C54–C58 the trap code of a port as a list of instructions of a word machine (registers and memory as functions, memory as words at the
  addresses used, so overlapping unaligned accesses are not modelled); effect of the save and restore blocks by induction on their register
  lists; `Port.Sound` per port, then one generic induction over histories for any number of tasks. Hazards, caches and instruction
  encodings are not modelled.
* C59 one state per interrupt controller, with the meaning the hardware manual gives to reads and writes of its registers; enable and disable are the C read-modify-writes. Proved for every interrupt number and register content, or refuted for every one.  Hardware semantics of the registers are trusted.
* C60 a cache is a partial map from line numbers to (dirty, bytes); the loops of the ports are executed on it, with 32-bit wrap-around; the range is covered iff the count of lines is right, proved both ways. C61 the register is a function of time and SINCE is compared with the time elapsed, for all times.
* C44 refinement to a list; C45 explicit schedule; C46 small-step SPSC refinement.
* C62 a table is a region of memory, an index function and the dispatcher's lookup; right for one registration implies right for every history (induction), instantiated per port. C63 a port is (suspend, resume, init, takes) on the registers that mask interrupts; a history between the two calls may contain an interrupt only if one is taken. C64 a transition system with any number of cores, a lock word and the polling counter; exclusion is an inductive invariant in debug builds, and a run breaking it is built for every CONFIG_DEADLOCK_COUNT in release builds.
* C65 what is programmed is a prescaler and a count, computed with the truncations of the C types and of the registers; compared with F/hz as rationals (cross-multiplied). The loops that search for a prescaler by induction.
* C66 win32: suspend counts per thread; pthread: where each thread waits and whether SIGUSR1 is pending. Any number of threads; an inductive invariant under the conditions the ports rely on, explicit runs for arbitrary tasks against the claim in general. The behaviour of the host's system calls is trusted as documented.
* C67, C68 a task and an interrupt routine as a transition system; the fifo is related to a list (`Holds`), then an inductive invariant per driver; the false clauses are refuted by a run for every size and buffer.
* C69 the calls and the controller as a transition system, parameters per driver (frame width, stored bytes, condition to push, fifo depths); an inductive invariant relates balance, fifos, wire and buffer; losses are counted, shown impossible where they are and reached by explicit runs elsewhere.
* C70 each function as iterations of its loop, the schedule choosing how many bytes each exchange moves and when the memory is done; one lemma about run_cmd (any split), then an invariant per function over its sequence number. The memory (commands, write enable latch, page wrap, bits only cleared) is modelled from its documented behaviour and trusted.
* C71 the search loops with their 32-bit arithmetic, the register words with the macros of the drivers; the bit rate is read back from the register with the field layout of the reference manual. Soundness and completeness of the search by induction. A driver whose register is wrong gets a theorem saying for which rates.
* C72, C73 a mailbox is decoded into a frame by a function written from the reference manual (layout of identifier, length, bytes in bus order); the C code writes/reads the words of the mailbox with its own macros. `asked` and `received` are the whole specification. Where the driver departs from it the exact frame sent or bytes read are stated.
* C74 induction over the sequence of calls: each call that returned 0 owns a filter element, each filter element enabled belongs to such a call.
* C75 calls and ends of operations as a transition system (Same5x), the busy flag as an arbitrary function of the number of reads (Gd32), the command register decoded with the layout of the reference manual (Eefc). flash-pic32mx.c is not modelled: it doesn't match flash-attributes.h and calls a function that is not defined.
* C76 the step is linear over GF(2); its matrix M satisfies M^(2^32-1) = 1 and M^((2^32-1)/p) - 1 is invertible for each prime p dividing 2^32-1 (matrices computed by the kernel), from which the period of every non-zero state is 2^32-1, hence the orbit is everything.
* C77 calls and ends of operations as a transition system.
* C78 an operation is the list of its accesses; invariant: what is left of an operation of a task, run on the present port, gives the level its operations ask for. Register width and choice of the port simplified as said in Gpio.lean; the compiler is trusted not to merge or split accesses.
* C79 calls, interface events and messages as a transition system; the bus is a history variable; invariant: the bus is the concatenation of what the finished messages ask for and of a beginning of the present one, by state of the driver. The slave role and twi_setup are not modelled.
* C80 the same with a FIFO of any depth: bus ++ (what the FIFO will emit) is the invariant. The slave role and twi_setup are not modelled.
* C81 each pwm_set_period as a function of the clock, the prescaler and the period, registers narrowed explicitly; `PeriodOk` (one count of tolerance, multiplied out) is equivalent, by driver, to explicit conditions (`reg_iff`: nothing overflowed and the MHz truncation is invisible), with refutations where the driver is wrong for ordinary values. Center-aligned waveforms (but avr), dead times and capture (ipwm) are not modelled.
* C82 each set_baudrate as a function of the clock and the rate asked, with the 32-bit overflows and the width of the divider's register explicit; the result is the bit length the manuals give for the registers written. `RateOk` (multiplied out, no division) is equivalent, per driver, to the divider being in range; refutations where it is not checked or where the fraction is computed wrong (pl011: hundredths for 1/64ths; gd32vf103: remainder divided by the quotient; sercom: 10 bits of precision; n76e003 UART1: twice too slow). What the registers mean and what a late latch does is trusted (see C83).
* C83 each set_cs / set_parity / set_cstopb as bit-vector operations on the registers, the shared body of uart_setup composed from them (`setup_some`, `setup_none`); `*Fmt` decodes the registers to a frame as the manuals say (trusted), `want` is the specification. Refutations: pl011 does not latch a baud rate given alone; sercom sends most significant bit first; atsamx7x/sam3x, pic32mx, mc9s08 accept sizes or stop bits they do not provide; atsamx7x_usart refuses cs = 0; gd32vf103 and stm32h7xx count the parity bit among the data bits; linflexd sends one stop bit whatever is asked; mc9s08 even parity writes the wrong register.
* C84 the two polling loops over an abstract transmitter/receiver of any depth, the line (an arbitrary function of the poll) moving before every status read; induction on the buffer, then on the calls. 8051, n76e003 and linflexd have their own transmitters. Refutations: pl011 reads 0 bytes instead of -EAGAIN; renesas and pic32mx never clear an overrun, tinyavr never takes out a byte with a framing error (both deaf for ever); n76e003 counts another byte than the one sent if the caller changes its mind; linflexd returns -EAGAIN after bytes were sent and clears the receive flag when writing. n76e003 UART1 writes to UART0's registers (uart-n76e003.c:172-185), not modelled. That an overrun stops the receiver (renesas, pic32mx) is from the manuals, trusted.
* C85 each driver's registers, decoded to (counting, period, window) as the manuals say (trusted), and a counter of cycles; histories are lists of events (a cycle, or a call). `WdTimer` proves once, by induction on the history, that an ideal timer fires iff the history contains a starved stretch or an early refresh; each driver is shown to simulate it. Refutations: avr, an interrupt inside the timed sequence loses wd_start's period or wd_stop; same5x, a window once set up stays; gd32vf103, the product overflows and no timeout is longer than 4304 cycles; stm32h7xx, timeouts longer than 4096 ms are accepted and shortened; atmel_wdt, 30 % late at 32768 Hz and dead for ever if stopped first; sam3x, disabled for good by its own init; ti_f28x, wd_start loses the prescaler, wd_stop does not stop, or prevents any start. rp2040 pauses instead of stopping: exact condition in rp2040_watchdog. pic32mx (`WdPic`): whether RUNDIV and the key accept 32-bit writes is a parameter, theorems for either. Not modelled: staging mc9s08ptxx and renesas_ra4_wdt.
* C86 a block is a state machine of (hardware step | adc_read by object i); samples carry the channel and the time of the conversion; deliveries are logged. The spec `Good` says own channel, new, in order; proved by invariants on the whole history, and progress by the steps left. Blocks with a result per channel: any interleaving. One result register: while the objects take turns, with refuting histories otherwise. Refuted: sam3x (stale values), stm32h7xx with several channels (same conversion twice), gd32vf103 (one value ever), same5x (an object stuck), avr in free-running mode, nxp_eqadc (only the first command runs). Not modelled: the triggers by timers, adc_read during a DMA transfer of the same word.
* C87 the arithmetic of each adc_read with C's int (none: undefined), and ti_type4's allocation of conversion units.
* C88 registers as bit vectors, `Field` for put/get; the sequence registers read back as a list of channels, by induction on the list of initialisations. Refuted: stm32h7xx sampling times of channels 9 to 18, gd32vf103 length of the sequence, atmel_afec clocks under 20 MHz, avr channels 8 to 15 of the 2560, tinyavr clocks, pic32mx modes (bit numbers as masks) and triggers (neighbours lost).
* C89, C90 the registers written by spi_setup as bit vectors; `View` is what they mean on the lines (from the manuals), `Asked` the specification: each setting asked for is there, the others are as before. Proved by composing the steps of spi_setup, one lemma per step saying that it changes its part of the view and no other; and `*_accepts` that the settings in range are accepted. Full: gd32vf103, renesas_ra4, mc9s08ptxx, arm_pl022 (its rate within one of the divider). Refuted: stm32h7xx rates under f/256 (become f/2), avr rates under f/128 (read past the table), nxp_dspi and atsamx7x/sam3x/qspi (a rate alone wipes the mode and the frame size; the latter or the new divider into the old one), pic32mx and ti_f28x (phase inverted in every mode; dividers that wrap; ti: role without mode is an error, mode without role is ignored), atmel_sercom (`1 < 29` for `1 << 29`: modes 1 to 3 reset the block), tinyavr (every mode is the next one), n76e003 and ch552 (quotient cut to 8 bits), frames of any size accepted by the 8-bit drivers. Not modelled: spi-avr_usart.c (does not compile), drivers under picoRTOS's own spi_sd (no set-up of registers).
* C91, C92, C93 `DmaSpec`: a transfer is a list of units (address from, address to, size); the channel is a machine that sees requests and calls in any order; the theorems say which prefix of the list has been moved after any schedule, by induction on the schedule. `DmaMem` gives the effect on memory (wanted_copies, wanted_fills). Models: rp2040, gd32vf103, stm32h7xx, same5x, ti_f28x, nxp_edma. The 32-bit mode of ti_f28x, error interrupts, bus errors and arbitration between channels are not modelled.
* C94 each driver's registers as bit vectors per port; `View` is what the registers mean for a pin (from the manuals); `serves` says that a call gives the view asked, `keeps`/`others` that the other pins are as before, `Drv.last_wins` composes them over any sequence of calls.
* C95 the registers a clock driver writes and the records it keeps are one state; `hw` computes, from the registers alone and the tree of the reference manual (trusted), the frequency of each clock as a ratio; `Tells` compares what clock_get_freq answers with the floor of that ratio. The loops that search PLL factors are lists of candidates, the first that satisfies the test with the C arithmetic (undef on signed overflow, wrap on unsigned). Refutations are explicit configurations (`*_wrong`, `*_stale`).
* C96 gates as banks of bit registers; `on` read back; one theorem per call giving the state of every gate after it.
* C97 the two assembly files as lists of instructions over the registers they name, `Steps` any number of them; `Returns` says that from every state with the arguments in a0, a1 the routine ends at the return address with the value. Proved by the loop invariants (product + multiplicand * multiplier; quotient and remainder of the shifted divisor).
* C98 byte memory, the macros as lists of instructions (delay slots with a second program counter, unaligned accesses fault), the startup.S files as lists of uses of the macros over the linker's symbols. `Boot` any execution, `Ends` that there is one from every state. `Placed` is what the linker guarantees (trusted), `mustLoad`/`mustClear` what the C language needs, written without looking at the startup. Not modelled: caches, write buffers, the linker itself.
* C98 (8-bit) the macros of the 8051, STM8 and HCS08 the same way (`Startup8`), with 16-bit addresses; on the 8051 the initialisers are in the code memory. `boot_right` is full for these.
* C99 `Drivers/TwiRate`: set_bitrate of the twelve TWI drivers as functions of clock and rate to the length of a bit (the manuals' formulas, trusted), 32-bit arithmetic and widths of registers explicit. `NotFaster`, `Near` are the specification. Proved by division lemmas; loops by induction on the list of settings tried.
* C100 `Drivers/Fram`: eeprom-cy15b004j.c as a step function over the master of twi-avr.c (state machine and flags of the driver, one bus event per call at the will of the environment) and a chip with its address counter (datasheet, trusted). Proved by invariants over the phases of a message; refutations are runs. Over twi-dw_apb_i2c only the refutation.
* C101 `Drivers/Spi1`: calls, controller and interrupt routine as a transition system (the two tests of a call are two steps where the controller can move in between); `Faithful` is the specification; invariant by the phase of the byte under way, for the interrupts by the contents of the two queues (C46). The termination theorem is: from every reachable state the end can be reached. `Spi1Usart` is the same for spi-avr_usart.c (a transmit buffer, two flags set in any order; the file includes a header that does not exist and is modelled as if it did). Chip datasheets (one buffer or two, which flag when) are trusted; for the n76e003 the reading of TXBUF most favourable to the driver is taken.
* C102 `Drivers/Ipwm`: the signal is a function of the cycle; the capture units of eMIOS (IPM) and TC are stepped one cycle at a time between calls made at any cycle; the invariant says which edges the captures are. The gated and edge counters of the rp2040 and the accumulator of eMIOS (WPTA) are counts over a range of cycles; counting lemmas over a period. Trusted: the data sheets' description of the capture modes; that the counter bus of WPTA counts the same clock as the channel.
* C103 `Arch/Core1`: two cores and two FIFOs as a transition system, any interleaving; the words taken by the boot ROM form a chain with the words not yet read by core 0 (invariant). Trusted: the boot ROM as described in the data sheet (echoes each word; a 0 restarts). Not modelled: the number of attempts.
* C104 `Drivers/SpiDma`: calls, the two channels and the wire as a transition system; invariant over every run (sent, in the FIFO and still to fill make up the message). Refutations by construction of the run. Not modelled: data cache of stm32h7xx, dma_setup failing.
* C105 `Sched/Clocked`, `SMP/Stats`: the readings the schedulers take as given in C22 are those of a timer (C61); invariant: the running task carries the reading made when it was given the processor (SMP: or 0 after a tick of another core).
* C106 `SMP/Turns`: C11, C12 and the first half of C13 for the SMP scheduler (whose round robin is in C13).
* C107 `SMP/Noncoh`: memory, a cache per core (C60), the four cache calls of a pass, fills and evictions at any time; invariant: memory is current, and no core holds an old copy of a byte it may read.
* C108 `Drivers/PwmRun`: each function is its list of register accesses, per driver; what makes an output run is taken from the reference manuals; by induction on the calls, and an invariant on interleavings.
* C109 `Sched/Period`, `Lite/Period`, `SMP/Period`: by induction on the history, from the effect of one event (C01, C18, C20); the invariant is that the running task precedes the one that waits.
* C110 `Ipc/MutexCache*`: memory, one copy for each core, each access a step; by invariants on what each task was told (`Ok`, `Exact`); the failures by runs of the model, the leak kept for ever by `owner_stays`.
* C111 `Ipc/FutexCache`: as for the mutex; by invariants; the failures by runs of one task.
* C112 `Drivers/C55fmc*`: the registers of the flash, its page buffer, the end of an operation as an event; the tables of both machines; by an invariant on the client's progress (`WInv`, `EPh`); the failures by computation and by induction on the calls.
* C113 `Drivers/W1*`: the driver on any UART, the line as a wired and; by invariants on the progress of the caller (`WInv`, `ZPh`, `Mute`); the failures by computation, by induction for every schedule.
* C114 `Drivers/Lin*`: BIDR and the data registers as bit vectors, the end of a frame and the answer as events; by invariants on the phase of the call (`WPh`, `RPh`); bits by lemmas on fields; the failures by computation, for all ids.
* C115 `Drivers/Dmasg*`: 64 descriptors, an engine that serves one channel at a time and moves groups of bytes; addresses of the engine are shown to be those of the specification (`place`) by induction; phases of a channel (`Idle`, `Busy`) kept by every event; effect on memory by induction on the groups.
* C116 `Drivers/TwiSam*`: THR, RHR, START, STOP, NACK and the state of the driver; the bus moves between any two accesses; by an invariant on the number of bytes given (`K`), and a measure for the end; the failures by runs for all data, the endless ones by induction on the schedule.
* C117 `Drivers/TwiF28*`: STT, I2CCNT, NACK, the FIFOs of 16 words and their flags; the bus moves between any two accesses; by an invariant on the number of bytes given and sent (`K`), and a measure for the end; the failures by runs for all data.
* C118 `Drivers/TwiSercom*`: what the host is asked for, MB, SB, RXNACK, ACKACT; the bus moves between any two accesses; writes by an invariant with a measure (`K`), reads by an invariant over all schedules (`L`).
* C119 `Drivers/TwiPic*`: SEN, TRSTAT, PEN, ACKSTAT; the bus moves between any two accesses; by an invariant with a measure (`K`); the failures by runs for all data. twi_read is not modelled (it uses the module in a way the manual does not allow).
* C120 `Drivers/Trng*`: the words that wait, made at any time, a seed error throws them away; induction on the loop and on the calls (words used are a sublist of the words made).
* C121 `Drivers/CanSame*`: on the elements, frames and receive fifo of `Pico.Can.Mcan`, the search of `CanTiming`; NBTP and GFC as after a reset; the stuck reception by induction on the history.
* C122 `Drivers/MiscCfg*`: the registers of a block are a map from byte offsets to words; each setter leaves every other offset as it was; bits by extensionality; the wait by induction on the count. Trusted: the datasheet's place of SLOT_CYCLE (bits 8-0) and that the channels of the glitch filter are 0x40 apart.
