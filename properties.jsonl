{"id": "C01", "title": "Tick selects the most urgent eligible task", "statement": "After every picoRTOS_tick, the task that runs is an eligible one (ready, and it is its turn among the tasks sharing its priority) and no eligible task has a numerically smaller priority; idle runs iff no user task is eligible.", "quantifier": "every configuration, every set of added tasks, every history of ticks and syscalls, every tick value including counter wrap-around", "why_tests_cant": "the set of histories and task sets is unbounded; a test samples a few task sets and a few tick values, far from wrap-around", "anchors": ["scheduler/picoRTOS.c:picoRTOS_tick", "scheduler/picoRTOS.c:task_core_is_available", "scheduler/picoRTOS.c:picoRTOS_start"]}
{"id": "C02", "title": "picoRTOS_sleep(d) lasts exactly d ticks", "statement": "A task that calls picoRTOS_sleep(d), d>=1, is never run again before the d-th following tick and is ready from the d-th tick on, whatever the other tasks do and even if the tick counter wraps in between.", "quantifier": "every reachable state, every delay 1..2^w-1, every continuation history", "why_tests_cant": "delays up to 2^32-1 and wrap-around of a 32-bit counter cannot be run by a test, nor can all interleavings", "anchors": ["scheduler/picoRTOS.c:syscall_sleep", "scheduler/picoRTOS.c:picoRTOS_tick", "scheduler/picoRTOS.c:picoRTOS_sleep"]}
{"id": "C03", "title": "picoRTOS_sleep(0) does not sleep", "statement": "picoRTOS_sleep(0) yields the processor to the next eligible less urgent task, but the caller stays ready: it is eligible at the very next tick at which it is its turn.", "quantifier": "every reachable state and history", "why_tests_cant": "must hold in all scheduler states", "anchors": ["scheduler/picoRTOS.c:syscall_sleep", "scheduler/picoRTOS.c:syscall_switch_context"]}
{"id": "C04", "title": "picoRTOS_sleep_until is drift-free when on time", "statement": "If fewer than `period` ticks elapsed since *ref (modulo the counter width), picoRTOS_sleep_until(&ref, period) sets *ref to *ref+period and the task becomes ready exactly when the tick counter equals the new *ref, so a periodic task that is always on time wakes at ref0 + k*period for every k, without drift.", "quantifier": "every reachable state, every ref, every period>=1, every number of iterations k, every counter wrap", "why_tests_cant": "drift is a property of unboundedly many iterations, wrap-around cannot be reached by a test", "anchors": ["scheduler/picoRTOS.c:syscall_sleep_until", "scheduler/picoRTOS.c:picoRTOS_sleep_until"]}
{"id": "C05", "title": "picoRTOS_sleep_until when late", "statement": "If the period is already elapsed, the documentation says picoRTOS throws a debug exception, updates *ref to the current tick and continues. (The code does it only from the (CONFIG_DEADLOCK_COUNT+1)-th consecutive miss; before that *ref is left unchanged and no exception is raised.)", "quantifier": "every reachable state, every ref and period, every number of consecutive misses", "why_tests_cant": "depends on an unbounded history of misses and on the configuration constant", "anchors": ["scheduler/picoRTOS.c:syscall_sleep_until", "scheduler/picoRTOS.c:picoRTOS_sleep_until"]}
{"id": "C06", "title": "A killed task never runs again", "statement": "After a task calls picoRTOS_kill it never becomes the running task again, for any continuation.", "quantifier": "every reachable state, every continuation of any length", "why_tests_cant": "'never' ranges over infinitely many continuations", "anchors": ["scheduler/picoRTOS.c:syscall_kill", "scheduler/picoRTOS.c:picoRTOS_kill", "scheduler/picoRTOS.c:syscall_switch_context", "scheduler/picoRTOS.c:picoRTOS_tick"]}
{"id": "C07", "title": "The scheduler never stalls or reads out of its tables", "statement": "From picoRTOS_start on, as long as the stack pointer handed over is inside the running task's stack, a tick always completes and a syscall issued by a user task always completes: no fatal assertion, no division by zero, no access outside the task or sub-priority tables, and a task is always selected. A syscall issued by the idle task stalls the system.", "quantifier": "every configuration whose pid type can hold CONFIG_TASK_COUNT+1, every history", "why_tests_cant": "absence of failure over all histories", "anchors": ["scheduler/picoRTOS.c:picoRTOS_syscall", "scheduler/picoRTOS.c:picoRTOS_tick", "scheduler/picoRTOS.c:syscall_switch_context"]}
{"id": "C08", "title": "Context fidelity", "statement": "Whenever the scheduler switches to a task, the stack pointer it returns is the one that task handed over when it was last suspended, or the one prepared by arch_prepare_stack if it never ran; no other task's activity changes it.", "quantifier": "every history, every task", "why_tests_cant": "all interleavings of all tasks", "anchors": ["scheduler/picoRTOS.c:picoRTOS_syscall", "scheduler/picoRTOS.c:picoRTOS_tick", "scheduler/picoRTOS.c:picoRTOS_add_task"]}
{"id": "C09", "title": "Stack overflow detection", "statement": "A syscall or tick entered with a stack pointer outside [stack bottom, stack top) of the running task stalls the system instead of scheduling another task; with a pointer inside, this check never stalls.", "quantifier": "every stack pointer value, every reachable state", "why_tests_cant": "all pointer values and states", "anchors": ["scheduler/picoRTOS.c:picoRTOS_syscall", "scheduler/picoRTOS.c:picoRTOS_tick"]}
{"id": "C10", "title": "System tick counts ticks", "statement": "picoRTOS_get_tick returns (number of ticks since start - 1) modulo the counter width: the first tick is 0, syscalls never change it.", "quantifier": "every history of any length", "why_tests_cant": "needs histories longer than the counter", "anchors": ["scheduler/picoRTOS.c:picoRTOS_get_tick", "scheduler/picoRTOS.c:picoRTOS_tick", "scheduler/picoRTOS.c:picoRTOS_init"]}
{"id": "C11", "title": "picoRTOS_start orders tasks by priority, losing none", "statement": "After picoRTOS_start the pids are a permutation of the added tasks in non-decreasing order of priority, tasks with equal priority keep the order in which they were added, and every task keeps its own stack bounds, stack pointer and priority.", "quantifier": "every number of tasks, every assignment of priorities", "why_tests_cant": "all permutations of all sizes", "anchors": ["scheduler/picoRTOS.c:picoRTOS_start", "scheduler/picoRTOS.c:core_sort_tasks", "scheduler/picoRTOS.c:task_core_quickswap"]}
{"id": "C12", "title": "Shared priorities get distinct turns", "statement": "After picoRTOS_start the k tasks that share a priority have distinct turns 0..k-1 (in the order they were added) out of exactly k.", "quantifier": "every number of tasks, every assignment of priorities", "why_tests_cant": "all assignments", "anchors": ["scheduler/picoRTOS.c:core_arrange_shared_priorities"]}
{"id": "C13", "title": "Round-robin fairness between tasks sharing a priority", "statement": "Among k tasks sharing a priority, at each tick exactly one has its turn, and in any k consecutive ticks (system ticks, on SMP) each has exactly one turn. (True except where the truncated tick counter wraps and k does not divide 2^w.)", "quantifier": "every k, every tick value", "why_tests_cant": "fairness at counter wrap is out of reach for tests", "anchors": ["scheduler/picoRTOS.c:task_core_is_available", "scheduler/picoRTOS.c:core_arrange_shared_priorities"]}
{"id": "C14", "title": "picoRTOS_add_task accepts exactly the legal tasks", "statement": "picoRTOS_add_task succeeds iff priority < CONFIG_TASK_COUNT and fewer than CONFIG_TASK_COUNT tasks have been added, otherwise the system stalls; on success the task gets the next pid, its stack bounds and its priority and no other task changes. (The documentation also says that a priority already in use is refused: it is not, priorities may be shared.)", "quantifier": "every sequence of add_task calls", "why_tests_cant": "all call sequences", "anchors": ["scheduler/picoRTOS.c:picoRTOS_add_task"]}
{"id": "C15", "title": "picoRTOS_get_next_available_priority returns the smallest unused priority", "statement": "picoRTOS_get_next_available_priority returns the smallest priority that no task uses and stalls iff all are used. (False in general: after a match the search restarts at pid 1, so the priority of the first added task can be returned although it is in use.)", "quantifier": "every sequence of add_task calls", "why_tests_cant": "needs all task sets; the counterexamples are specific orders", "anchors": ["scheduler/picoRTOS.c:picoRTOS_get_next_available_priority"]}
{"id": "C16", "title": "picoRTOS_get_last_available_priority returns the largest unused priority", "statement": "picoRTOS_get_last_available_priority returns the largest unused priority and stalls iff all are used. (False in general, same restart bug.)", "quantifier": "every sequence of add_task calls", "why_tests_cant": "needs all task sets; the counterexamples are specific orders", "anchors": ["scheduler/picoRTOS.c:picoRTOS_get_last_available_priority"]}
{"id": "C17", "title": "picoRTOS_start stays inside its tables", "statement": "picoRTOS_start never writes outside the scheduler's tables. (False: with two or more unused task slots it writes sub[CONFIG_TASK_COUNT+1], one past the end; true iff at most one slot is unused.)", "quantifier": "every configuration, every set of added tasks", "why_tests_cant": "memory safety over all task counts; the stray write lands in the idle stack and is silent", "anchors": ["scheduler/picoRTOS.c:core_arrange_shared_priorities"]}
{"id": "C18", "title": "picoRTOS_postpone gives way and comes back", "statement": "picoRTOS_postpone runs the next eligible less urgent task if there is one; otherwise it restarts from the most urgent eligible task. It never changes the caller's readiness, never selects idle and never waits for a tick: the postponed caller runs again before idle does, within the same tick.", "quantifier": "every reachable state, every continuation within the tick", "why_tests_cant": "all interleavings of the other tasks", "anchors": ["scheduler/picoRTOS.c:picoRTOS_postpone", "scheduler/picoRTOS.c:syscall_switch_context"]}
{"id": "C19", "title": "API before start stalls", "statement": "suspend, resume, postpone, sleep, sleep_until, kill, self and get_tick stall the system when called before picoRTOS_start, and none of them stalls for that reason afterwards; sleep_until with period 0 always stalls.", "quantifier": "every pre-start and post-start state", "why_tests_cant": "all states", "anchors": ["scheduler/picoRTOS.c:picoRTOS_sleep", "scheduler/picoRTOS.c:picoRTOS_sleep_until", "scheduler/picoRTOS.c:picoRTOS_self", "scheduler/picoRTOS.c:picoRTOS_get_tick"]}
{"id": "C20", "title": "A voluntary switch hands over to the next eligible task", "statement": "When a task sleeps, waits or dies (and nobody postponed in this tick), the task that runs next is the eligible task of smallest pid greater than the caller's: no eligible task in between is skipped, no more urgent task is re-run before the next tick.", "quantifier": "every reachable state", "why_tests_cant": "all states", "anchors": ["scheduler/picoRTOS.c:syscall_switch_context"]}
{"id": "C21", "title": "picoRTOS_task_init keeps the aligned stack inside the user's array", "statement": "The stack range recorded by picoRTOS_task_init starts on a cache line boundary, is a whole number of cache lines and lies inside the array given by the user; at most two cache lines minus two elements are lost; a stack below the architectural minimum stalls.", "quantifier": "every stack address, size, line size and element size (powers of two, element size not larger than a line)", "why_tests_cant": "all addresses and sizes", "anchors": ["scheduler/picoRTOS.c:picoRTOS_task_init", "scheduler/picoRTOS.c:L1_CACHE_ALIGN"]}
{"id": "C22", "title": "CPU usage statistics bound every sample", "statement": "For each task, the low and high watermarks bound every duration sampled when the task was suspended, and are attained by one of them.", "quantifier": "every history", "why_tests_cant": "unbounded histories", "anchors": ["scheduler/picoRTOS.c:task_core_stat_finish"]}
{"id": "C23", "title": "Delay macros round up", "statement": "PICORTOS_DELAY_MSEC(x) and PICORTOS_DELAY_USEC(x) return the least number of ticks not shorter than x ms / x us, and PICORTOS_DELAY_SEC(x) is exact, as long as the intermediate product fits the integer type and the result fits picoRTOS_tick_t (and they are wrong otherwise).", "quantifier": "every x and tick frequency", "why_tests_cant": "all values; overflow thresholds depend on the configuration", "anchors": ["picoRTOS.h:PICORTOS_DELAY_SEC", "picoRTOS.h:PICORTOS_DELAY_MSEC", "picoRTOS.h:PICORTOS_DELAY_USEC"]}
{"id": "C24", "title": "PICORTOS_DELAY_ELAPSED is wrap-safe", "statement": "If n < 2^w ticks passed since ref was taken, PICORTOS_DELAY_ELAPSED(ref,x) is true iff n >= x, whatever the value of ref (also if the tick counter wrapped). (On architectures where int is wider than picoRTOS_tick_t the subtraction is done in int and the macro is wrong after a wrap.)", "quantifier": "every ref, n, x", "why_tests_cant": "wrap-around is out of reach for tests", "anchors": ["picoRTOS.h:PICORTOS_DELAY_ELAPSED"]}
{"id": "C25", "title": "SMP: a task never runs on two cores", "statement": "In every reachable state of the SMP scheduler the tasks running on two different cores are different, and each running task is the one marked busy by that core.", "quantifier": "every number of cores, every interleaving of ticks and syscalls of all cores", "why_tests_cant": "all interleavings of several cores", "anchors": ["scheduler/picoRTOS-SMP.c:picoRTOS_tick", "scheduler/picoRTOS-SMP.c:syscall_switch_context"]}
{"id": "C26", "title": "SMP: core affinity", "statement": "A task only ever runs on a core of the mask given to picoRTOS_SMP_add_task; the idle task of core i only runs on core i.", "quantifier": "every mask, every interleaving", "why_tests_cant": "all interleavings", "anchors": ["scheduler/picoRTOS-SMP.c:picoRTOS_SMP_add_task", "scheduler/picoRTOS-SMP.c:task_core_is_available"]}
{"id": "C27", "title": "SMP: the tick advances once per round of cores", "statement": "The SMP tick counter advances exactly once every CONFIG_SMP_CORES calls to picoRTOS_tick, whichever cores make them; syscalls never change it.", "quantifier": "every interleaving of cores", "why_tests_cant": "all interleavings", "anchors": ["scheduler/picoRTOS-SMP.c:picoRTOS_tick"]}
{"id": "C28", "title": "SMP: picoRTOS_sleep(d) lasts exactly d system ticks", "statement": "A task that sleeps d>=1 ticks runs on no core before the system tick has advanced d times, and is ready as soon as it has.", "quantifier": "every delay, every interleaving", "why_tests_cant": "all interleavings, wrap-around", "anchors": ["scheduler/picoRTOS-SMP.c:syscall_sleep", "scheduler/picoRTOS-SMP.c:picoRTOS_tick"]}
{"id": "C29", "title": "SMP: per-core priority", "statement": "After a tick on core c the running task is the smallest pid among the tasks eligible on core c (ready, allowed on c, its turn).", "quantifier": "every reachable state and core", "why_tests_cant": "all interleavings", "anchors": ["scheduler/picoRTOS-SMP.c:picoRTOS_tick"]}
{"id": "C30", "title": "SMP: the scheduler never stalls", "statement": "With a valid stack pointer, a tick on any core and a syscall from a user task on any core always complete: no fatal assertion, no division by zero, no out-of-table access, the selected task is runnable there.", "quantifier": "every interleaving of cores", "why_tests_cant": "all interleavings", "anchors": ["scheduler/picoRTOS-SMP.c:picoRTOS_syscall", "scheduler/picoRTOS-SMP.c:picoRTOS_tick"]}
{"id": "C31", "title": "SMP: a postponed task runs again before its core idles", "statement": "On SMP, a core does not go idle while a task it may run has postponed in the current tick. (False: the postponed flag is global and the first core that reaches idle consumes it.)", "quantifier": "every interleaving of cores", "why_tests_cant": "needs a specific interleaving", "anchors": ["scheduler/picoRTOS-SMP.c:syscall_switch_context"]}
{"id": "C32", "title": "SMP: a killed task never runs again on any core", "statement": "After picoRTOS_kill on SMP the task never runs again on any core.", "quantifier": "every interleaving, every continuation", "why_tests_cant": "infinitely many continuations", "anchors": ["scheduler/picoRTOS-SMP.c:syscall_kill"]}
{"id": "C33", "title": "Lite: priority scheduling", "statement": "In the lite scheduler, after every tick the running task is the ready task with the smallest priority number; idle runs iff no task is ready; ticks and user syscalls never stall.", "quantifier": "every configuration and history", "why_tests_cant": "all histories", "anchors": ["scheduler/picoRTOS-lite.c:picoRTOS_tick", "scheduler/picoRTOS-lite.c:syscall_switch_context"]}
{"id": "C34", "title": "Lite: sleep exactness and kill", "statement": "In the lite scheduler sleep(d) lasts exactly d ticks and a killed task never runs again.", "quantifier": "every history", "why_tests_cant": "unbounded histories", "anchors": ["scheduler/picoRTOS-lite.c:syscall_sleep", "scheduler/picoRTOS-lite.c:syscall_kill"]}
{"id": "C35", "title": "Lite: available-priority queries", "statement": "picoRTOS_get_next_available_priority returns the smallest unused priority and stalls iff none. picoRTOS_get_last_available_priority returns the largest unused one and stalls iff none (false: priority 0 is never examined, and when nothing is found (picoRTOS_priority_t)-1 is returned without a stall).", "quantifier": "every set of added tasks", "why_tests_cant": "all subsets", "anchors": ["scheduler/picoRTOS-lite.c:picoRTOS_get_next_available_priority", "scheduler/picoRTOS-lite.c:picoRTOS_get_last_available_priority"]}
{"id": "C36", "title": "Lite refines the full scheduler on distinct priorities", "statement": "With pairwise distinct priorities the lite scheduler and the full scheduler run the same task after every event of every history.", "quantifier": "every set of tasks with distinct priorities, every history", "why_tests_cant": "equivalence over all histories", "anchors": ["scheduler/picoRTOS-lite.c:picoRTOS_tick", "scheduler/picoRTOS.c:picoRTOS_tick"]}
{"id": "C37", "title": "Futex mutual exclusion", "statement": "If tasks only release a futex they acquired, at most one task is between a successful lock/trylock and its unlock, under every interleaving of the individual memory accesses of any number of tasks; without that discipline it fails (unlock does not check the owner).", "quantifier": "every number of tasks, every interleaving", "why_tests_cant": "all interleavings", "anchors": ["ipc/picoRTOS_futex.c:picoRTOS_futex_trylock", "ipc/picoRTOS_futex.c:picoRTOS_futex_lock", "ipc/picoRTOS_futex.c:picoRTOS_futex_unlock"]}
{"id": "C38", "title": "Futex/mutex lock gives up after a bounded number of attempts", "statement": "picoRTOS_futex_lock and picoRTOS_mutex_lock try to acquire, yielding one tick between attempts, and declare a deadlock iff all CONFIG_DEADLOCK_COUNT+1 attempts fail (the documentation says CONFIG_DEADLOCK_COUNT); they never return without holding the lock.", "quantifier": "every outcome sequence of the attempts, every configuration", "why_tests_cant": "all contention patterns", "anchors": ["ipc/picoRTOS_futex.c:picoRTOS_futex_lock", "ipc/picoRTOS_mutex.c:picoRTOS_mutex_lock"]}
{"id": "C39", "title": "Mutex mutual exclusion", "statement": "At most one task holds a mutex (more successful locks than unlocks) under every interleaving of the individual memory accesses of any number of tasks, even if tasks call lock and unlock in any order.", "quantifier": "every number of tasks, every interleaving, every call sequence", "why_tests_cant": "all interleavings", "anchors": ["ipc/picoRTOS_mutex.c:picoRTOS_mutex_trylock", "ipc/picoRTOS_mutex.c:picoRTOS_mutex_unlock"]}
{"id": "C40", "title": "Mutex re-entrancy", "statement": "The owner can lock again without blocking and the mutex is released exactly when the number of unlocks equals the number of locks.", "quantifier": "every nesting depth (below the counter's width), every interleaving", "why_tests_cant": "unbounded nesting and interleavings", "anchors": ["ipc/picoRTOS_mutex.c:picoRTOS_mutex_trylock", "ipc/picoRTOS_mutex.c:picoRTOS_mutex_unlock"]}
{"id": "C41", "title": "Mutex unlock is refused to anyone but the owner", "statement": "picoRTOS_mutex_unlock by a task that does not hold the mutex stalls the system; unlock by the holder never does.", "quantifier": "every interleaving", "why_tests_cant": "all interleavings", "anchors": ["ipc/picoRTOS_mutex.c:picoRTOS_mutex_unlock"]}
{"id": "C42", "title": "A condition signal releases at most one waiter", "statement": "Each picoRTOS_cond_signal releases at most one picoRTOS_cond_wait, a signal without waiter releases the next waiter, and the waiter owns the mutex when released. (Two signals before any waiter runs are merged into one: a wake-up is lost.)", "quantifier": "every number of waiters, every interleaving", "why_tests_cant": "all interleavings", "anchors": ["ipc/picoRTOS_cond.c:picoRTOS_cond_signal", "ipc/picoRTOS_cond.c:picoRTOS_cond_wait"]}
{"id": "C43", "title": "A condition broadcast releases every waiter", "statement": "picoRTOS_cond_broadcast releases every task waiting at that time, if no signal is sent before they have all left (a later signal overwrites the broadcast and only one more waiter leaves).", "quantifier": "every number of waiters, every interleaving", "why_tests_cant": "all interleavings", "anchors": ["ipc/picoRTOS_cond.c:picoRTOS_cond_broadcast", "ipc/picoRTOS_cond.c:picoRTOS_cond_wait"]}
{"id": "C44", "title": "Queue is a bounded FIFO", "statement": "Used by one task at a time, a queue of `count` (power of two >= 2) elements delivers every written value exactly once and in order; writes fail iff count-2 values are stored (not count), reads fail iff none is.", "quantifier": "every count, every sequence of reads and writes", "why_tests_cant": "all sizes and sequences", "anchors": ["ipc/picoRTOS_queue.c:picoRTOS_queue_head_push", "ipc/picoRTOS_queue.c:picoRTOS_queue_head_pop", "ipc/picoRTOS_queue.h"]}
{"id": "C45", "title": "Queue under concurrency: what survives, what does not", "statement": "Whatever the interleaving of the individual accesses of any number of reader and writer tasks, the number of successful reads never exceeds that of the writes made or under way, the number of stored elements never exceeds count-2 (plus the reads under way), no access leaves the array and no task stalls except by not getting the lock. But the documented thread safety is false: with one writer and one reader, or two writers, a value whose write returned 0 may never be delivered, delivered twice, or replaced by a stale element (the element is accessed after the lock is released, through an index shared by all).", "quantifier": "every number of tasks, every size, every interleaving; explicit executions for the losses", "why_tests_cant": "needs a specific interleaving", "anchors": ["ipc/picoRTOS_queue.c:picoRTOS_queue_head_push", "ipc/picoRTOS_queue.h:PICORTOS_QUEUE_WRITE", "ipc/picoRTOS_queue.h:PICORTOS_QUEUE_READ"]}
{"id": "C46", "title": "Driver FIFO is a correct single-producer single-consumer queue", "statement": "With one producer and one consumer (task and interrupt) the driver fifo delivers every value once and in order under every interleaving of the individual accesses; capacity is size-2.", "quantifier": "every power-of-two size, every interleaving", "why_tests_cant": "all interleavings", "anchors": ["drivers/include/fifo.h:fifo_head_push", "drivers/include/fifo.h:fifo_head_pop"]}
{"id": "C47", "title": "The scheduler is observationally equal to an abstract specification", "statement": "For every set of tasks added before the start and every sequence of timer ticks and calls, everything that can be observed (which task runs after each event, the system tick, the stack pointer it resumes from, the new *ref and the debug exception of picoRTOS_sleep_until, and whether the system stalls) equals what a small specification machine predicts: tasks in order of priority then of creation, each ready, asleep for k more ticks, or dead; the tick runs the first task that is ready and whose turn it is; a call hands over to the next one, or idle, or starts over if somebody postponed.", "quantifier": "every configuration, every list of added tasks (legal or not), every finite history of events (legal or not)", "why_tests_cant": "equality of behaviours over all task sets and all histories", "anchors": ["scheduler/picoRTOS.c:picoRTOS_tick", "scheduler/picoRTOS.c:picoRTOS_syscall", "scheduler/picoRTOS.c:picoRTOS_start", "scheduler/picoRTOS.c:picoRTOS_add_task"]}
{"id": "C48", "title": "The SMP scheduler is observationally equal to an abstract specification", "statement": "For every number of cores, every set of tasks with their priorities and core masks, and every interleaving of the timer ticks and calls of the cores, everything that can be observed (which task runs on each core after each event, the system tick, the stack pointer a core resumes from, the new value of *ref and the debug exception of picoRTOS_sleep_until, and the stalls) is what a small abstract machine without task table, wake-up ticks or core counter produces.", "quantifier": "all configurations, core counts, task sets, masks and event interleavings", "why_tests_cant": "the number of interleavings of the cores and of histories is unbounded", "anchors": ["scheduler/picoRTOS-SMP.c: picoRTOS_init, picoRTOS_SMP_add_task, picoRTOS_start, picoRTOS_tick, picoRTOS_syscall"]}
{"id": "C49", "title": "SMP: what is accepted before the start, and picoRTOS_get_tick", "statement": "picoRTOS_SMP_add_task is accepted exactly if prio < CONFIG_TASK_COUNT, there is room, and the mask is non-empty and names existing cores only; the task is registered with exactly these cores. picoRTOS_add_task registers a task for every core. Anything else stalls. picoRTOS_get_tick on a core returns the number of rounds of ticks started so far minus one, and stalls before the first tick of that core.", "quantifier": "every configuration, every sequence of additions, every interleaving of the cores", "why_tests_cant": "all sequences of additions and all interleavings", "anchors": ["scheduler/picoRTOS-SMP.c:picoRTOS_SMP_add_task", "scheduler/picoRTOS-SMP.c:picoRTOS_add_task", "scheduler/picoRTOS-SMP.c:picoRTOS_get_tick"]}
{"id": "C50", "title": "SMP: picoRTOS_self identifies its caller", "statement": "picoRTOS_self returns the identity of the calling task, and the running check that opens every call never stalls a task that is running. (True if the task may run on one core only; false otherwise: the core number and the task table are read separately, and the task may be moved to another core in between.)", "quantifier": "every task, every schedule of the cores between the reads", "why_tests_cant": "the failing interleaving is a move between two instructions", "anchors": ["scheduler/picoRTOS-SMP.c:picoRTOS_self", "scheduler/picoRTOS-SMP.c:picoRTOS_sleep", "scheduler/picoRTOS-SMP.c:TASK_CURRENT"]}
{"id": "C51", "title": "SMP: sleep(0), sleep_until and stacks", "statement": "On SMP, a task that calls picoRTOS_sleep(0) or is late in picoRTOS_sleep_until runs on no core until the next tick of any core and is then ready; an on-time picoRTOS_sleep_until returns ref + period and wakes up exactly when the tick reaches it, without drift over any number of iterations on any cores; a late one raises the debug exception and resynchronises exactly after more than CONFIG_DEADLOCK_COUNT consecutive late calls. A task is resumed, on any core, with the stack pointer it was last suspended with; a stack pointer out of bounds stalls; bounds, priority and mask never change.", "quantifier": "every configuration, every reachable state, every interleaving", "why_tests_cant": "unbounded histories of several cores", "anchors": ["scheduler/picoRTOS-SMP.c:syscall_sleep", "scheduler/picoRTOS-SMP.c:syscall_sleep_until", "scheduler/picoRTOS-SMP.c:syscall_switch_context", "scheduler/picoRTOS-SMP.c:picoRTOS_tick"]}
{"id": "C52", "title": "SMP: available-priority queries", "statement": "On SMP, picoRTOS_get_next_available_priority returns the smallest unused priority and picoRTOS_get_last_available_priority the largest unused one; each stalls iff there is none. (False in general: after a match the search restarts at the second task.)", "quantifier": "every sequence of additions", "why_tests_cant": "all task sets", "anchors": ["scheduler/picoRTOS-SMP.c:picoRTOS_get_next_available_priority", "scheduler/picoRTOS-SMP.c:picoRTOS_get_last_available_priority"]}
{"id": "C53", "title": "Atomic operations of the ports", "statement": "arch_compare_and_swap(var, old, val) returns old exactly when it atomically replaced the content old of *var by val, and otherwise leaves *var unchanged; arch_test_and_set returns 0 exactly when it changed 0 into 1; undisturbed on a word holding old, the operation succeeds. (False of the mips and rv32imac ports and of hcs08: after a failed store-conditional MIPS test-and-set reports success, rv32imac inverts the test of the store-conditional, hcs08 runs with interrupts enabled.) On the ports that mask interrupts the operation always returns with interrupts enabled, even inside picoRTOS_suspend.", "quantifier": "every word, every store by other tasks or cores before any instruction, every spurious failure of a store-conditional, any number of concurrent callers", "why_tests_cant": "the failures need a preemption between two given instructions, or a spurious store-conditional failure", "anchors": ["arch/include/picoRTOS_port.h:arch_compare_and_swap", "arch/arm/armv7-m/picoRTOS_portasm.S", "arch/powerpc/e200z4/picoRTOS_portasm.S", "arch/mips/m51xx/picoRTOS_portasm.S", "arch/riscv/rv32imac/picoRTOS_portasm.S", "arch/8051/picoRTOS_portasm.S", "arch/avr/picoRTOS_port.c", "arch/hcs08/picoRTOS_port.c", "arch/c2000/c28x/picoRTOS_port.c", "arch/arm/armv6-m/mach-rp2040/picoRTOS-SMP_port.c"]}
{"id": "C54", "title": "A task never notices a context switch", "statement": "When the trap code of a port (tick or system call) hands a task's stack pointer to the scheduler and later gets that stack pointer back, by whichever handler, the task finds every register it can observe (stack pointer and program counter included) exactly as it left it, apart from the system call instruction being over; saving and restoring contexts writes no memory except the frame below the task's stack pointer (and the tick timer), and C runs on the stack set aside for the kernel. So in any history of tasks running and being switched by an arbitrary scheduler, a task brought in always finds the context it last had. (False of the mips port: s6 is never saved - s7 is saved twice - and the assembler temporary at is destroyed. False of the powerpc port on a core whose sthcx. succeeds whenever a reservation is pending: the one in RESTORE_CONTEXT then overwrites the upper half of the saved program counter; proved if sthcx. checks its address.) (On 8051 the frame pointer of the compiler, _bp, is not part of the context.) (False of c28x with a floating-point unit: the two halves of each floating-point register are exchanged at every switch.)", "quantifier": "every register content, every memory content, any number of tasks, every history of task code, traps and scheduler decisions", "why_tests_cant": "a lost register shows only if the task is interrupted while it is live, at a given instruction; all contents and histories", "anchors": ["arch/riscv/rv32imac/picoRTOS_portasm.S:SAVE_CONTEXT", "arch/riscv/rv32ec/picoRTOS_portasm.S", "arch/mips/m51xx/picoRTOS_portasm.S:RESTORE_CONTEXT", "arch/powerpc/e200z4/picoRTOS_portasm.S", "arch/arm/armv7-m/picoRTOS_portasm.S", "arch/arm/armv6-m/picoRTOS_portasm.S", "arch/arm/armv7-m/picoRTOS_portasm.S", "arch/arm/armv7e-m/picoRTOS_portasm.S", "arch/avr/picoRTOS_portasm.S", "arch/stm8/picoRTOS_portasm.S", "arch/hcs08/picoRTOS_portasm.S", "arch/8051/picoRTOS_portasm.S", "arch/c2000/c28x/picoRTOS_portasm.asm"]}
{"id": "C55", "title": "A new task starts at its function, with its argument and its whole stack", "statement": "arch_save_first_context(stack top, fn, priv) writes only the frame below the top of the stack, returns the stack pointer of that frame, preserves the registers its C caller relies on, and leaves there a context which, when brought in by the scheduler or by arch_start_first_task, enters fn with priv as its argument and the stack pointer at the top of the stack; arch_start_first_task also enables interrupts and sets the current stack aside for the kernel. (False on win32, where the function is kept in one variable for all tasks.) (On 8051 the third byte of the argument, which tells its address space, is replaced by 0, and the address of the stack is taken from registers the calling convention does not set.) (False on c28x for a stack at an odd address: the task starts at an address found in the memory of its stack.)", "quantifier": "every stack top, function, argument, register and memory content", "why_tests_cant": "all values, and each port has its own code", "anchors": ["arch/riscv/rv32imac/picoRTOS_portasm.S:arch_save_first_context", "arch/mips/m51xx/picoRTOS_portasm.S:arch_start_first_task", "arch/include/picoRTOS_port.h:arch_prepare_stack", "arch/powerpc/e200z4/picoRTOS_portasm.S:arch_start_first_task", "arch/arm/armv6-m/picoRTOS_portasm.S", "arch/arm/armv7-m/picoRTOS_portasm.S", "arch/arm/armv7e-m/picoRTOS_portasm.S", "arch/avr/picoRTOS_portasm.S", "arch/stm8/picoRTOS_portasm.S", "arch/hcs08/picoRTOS_portasm.S", "arch/win32/picoRTOS_port.c:arch_prepare_stack", "arch/8051/picoRTOS_portasm.S", "arch/c2000/c28x/picoRTOS_portasm.asm"]}
{"id": "C56", "title": "System calls reach the scheduler with the task's arguments", "statement": "The trap code of a system call calls picoRTOS_syscall with the stack pointer under which the calling task's context was saved, and with the two arguments the task passed to arch_syscall; interrupts are masked while the scheduler runs and their enable is unchanged on return. (False of the stm8 port: the scheduler gets the address of a word of the task's stack at a fixed distance from its stack pointer, whatever the task passed as second argument.)", "quantifier": "every register and memory content", "why_tests_cant": "all values, each port fishes the arguments from its own frame layout", "anchors": ["arch/riscv/rv32imac/picoRTOS_portasm.S", "arch/mips/m51xx/picoRTOS_portasm.S:GeneralException_Handler", "arch/include/picoRTOS_port.h:arch_syscall", "arch/arm/armv6-m/picoRTOS_portasm.S", "arch/arm/armv7-m/picoRTOS_portasm.S", "arch/arm/armv7e-m/picoRTOS_portasm.S", "arch/avr/picoRTOS_portasm.S", "arch/stm8/picoRTOS_portasm.S", "arch/hcs08/picoRTOS_portasm.S", "arch/8051/picoRTOS_portasm.S", "arch/c2000/c28x/picoRTOS_portasm.asm"]}
{"id": "C57", "title": "A platform interrupt runs the function registered for it, then resumes the task", "statement": "On platform interrupt irq, the function and argument given to picoRTOS_register_interrupt for irq are called, and when the function returns the interrupted task is resumed. (False of rv32imac and rv32ec: the index is scaled by 4 while entries are 8 bytes, so interrupt 2i runs the function of interrupt i, and the branch does not set the return address, so the function returns into the interrupted task's caller; false of mips: the function returns to the code that fetched it. On avr the function is entered with the interrupted task's r1, which compiled code assumes to be zero. On c28x the dispatcher does not subtract the first vector from the index, so interrupt irq runs the function registered for irq + 32.)", "quantifier": "every interrupt number, table content and task state", "why_tests_cant": "all interrupt numbers and task states", "anchors": ["arch/riscv/rv32imac/picoRTOS_portasm.S", "arch/riscv/rv32ec/picoRTOS_portasm.S", "arch/mips/m51xx/picoRTOS_portasm.S:Interrupt_Handler", "arch/powerpc/e200z4/picoRTOS_portasm.S", "arch/arm/armv6-m/picoRTOS_portasm.S", "arch/arm/armv7-m/picoRTOS_portasm.S", "arch/arm/armv7e-m/picoRTOS_portasm.S", "arch/avr/picoRTOS_portasm.S", "arch/stm8/picoRTOS_portasm.S", "arch/hcs08/picoRTOS_portasm.S", "arch/c2000/c28x/picoRTOS_portasm.asm", "arch/8051/picoRTOS_portasm.S"]}
{"id": "C58", "title": "Ticks are exactly one period apart", "statement": "The tick handler programs the next tick exactly one period after the current one (in the arithmetic of the timer). (False of rv32imac when the low word of the comparator is 0: the next tick is 2^32 counts late; false of the 8051 stc12, whose timer is reloaded by the handler: the time of the n-th tick is proved to contain every latency, so a late tick delays all those after it and they drift.)", "quantifier": "every comparator value and period", "why_tests_cant": "the carry error needs one comparator value out of 2^32", "anchors": ["arch/riscv/rv32imac/picoRTOS_portasm.S:INCREASE_MTIMECMP", "arch/mips/m51xx/picoRTOS_portasm.S:INCREMENT_CP0_COMPARE"]}
{"id": "C59", "title": "Enabling or disabling an interrupt affects that interrupt, and only that one", "statement": "After picoRTOS_enable_interrupt(irq) the interrupt controller forwards irq; after picoRTOS_disable_interrupt(irq) it does not; every other interrupt is as before. picoRTOS_SMP_enable_interrupt / _disable_interrupt(irq, mask) do so for exactly the cores of the mask. (False: disabling has no effect on the Cortex-M and rv32ec ports; on pic32mz enabling sets the priority of another interrupt; on c28x interrupts 32 to 127 are neither enabled nor disabled and unrelated memory is written; e200z4 SMP enable takes the interrupt from the other cores; e200z7 SMP disable never takes it from its last core.; on c28x tasks are also created with the interrupts of all the groups masked in the core.)", "quantifier": "every interrupt number, core set and register content", "why_tests_cant": "unit tests use a stub port, and the errors depend on the interrupt number and on the registers", "anchors": ["arch/arm/armv7-m/picoRTOS_port.c:arch_enable_interrupt", "arch/arm/armv6-m/picoRTOS_port.c", "arch/riscv/rv32ec/mach-ch32v003/intc-pfic.c", "arch/riscv/rv32imac/mach-gd32vf103/intc-eclic.c", "arch/mips/m51xx/mach-pic32mz/intc.c", "arch/c2000/c28x/picoRTOS_port.c:arch_set_irq_status", "arch/powerpc/e200z4/mach-mpc574x/intc-siul2.c", "arch/powerpc/e200z7/mach-mpc577x/intc-siu.c", "arch/8051/mach-n76e003/interrupt.c"]}
{"id": "C60", "title": "Flushing or invalidating a range of the data cache reaches every byte of it", "statement": "After picoRTOS_flush_dcache(addr, n) every byte of the range that this core had written is in memory, and no byte of memory outside the lines of the range changed; after picoRTOS_invalidate_dcache(addr, n) a load of any byte of the range returns what memory holds. (False when neither end of the range is aligned on a cache line and the range straddles one more line than its length counts: its last byte is missed; false on atsame5x for every range; on mips flushing also overwrites the stack pointer the kernel runs on.)", "quantifier": "every address, length, line size, memory and cache content", "why_tests_cant": "hosts have coherent caches and the error depends on the alignment of both ends of the range and on the state of the cache", "anchors": ["arch/powerpc/e200z4/picoRTOS_port.c:arch_flush_dcache", "arch/arm/armv7e-m/cache_mvsa.c", "arch/arm/armv7e-m/cache_cmcc.c", "arch/mips/m51xx/picoRTOS_port.c", "arch/mips/m51xx/picoRTOS_portasm.S:arch_hit_writeback_inv_d", "scheduler/picoRTOS.c:picoRTOS_flush_dcache"]}
{"id": "C61", "title": "The cycle counter measures the time elapsed since a reading", "statement": "If the counter is read at some time and arch_counter(ARCH_COUNTER_SINCE, reading) is called d cycles later, within a tick, it returns d, and in any case no more than a tick. (False: one cycle too few after a reload on the down counters; one too few on rp2040; a full tick at a reading equal to the top on avr and hcs08; the reading is added instead of subtracted on ch32v003.)", "quantifier": "every time of reading, elapsed time and timer period", "why_tests_cant": "unit tests stub the counter; the error shows for readings on the two sides of a reload", "anchors": ["arch/include/picoRTOS_port.h:arch_counter", "arch/arm/armv7-m/picoRTOS_port.c:arch_counter", "arch/arm/armv6-m/mach-rp2040/picoRTOS-SMP_port.c", "arch/avr/timer-tc0.c", "arch/riscv/rv32ec/mach-ch32v003/timer-stk.c", "arch/pthread/linux/picoRTOS_port.c", "arch/c2000/c28x/picoRTOS_port.c"]}
{"id": "C62", "title": "The dispatch table holds the last registration of every interrupt", "statement": "After any history of calls of picoRTOS_register_interrupt the function and argument the dispatcher finds for an interrupt are those of the last registration of that interrupt, or what was there before if there was none, and no memory outside what is reserved for the table was written. (False on avr: only one byte is reserved for each 4-byte entry, so every registration from the second vector on, including that of the tick, writes outside the table. On c28x a release build does not refuse a number outside the table and writes outside it.)", "quantifier": "every history of registrations, table address, table size and memory content", "why_tests_cant": "all histories and all vector numbers; unit tests run on a port whose table is an ordinary C array", "anchors": ["arch/arm/armv7-m/picoRTOS_port.c:arch_register_interrupt", "arch/mips/m51xx/picoRTOS_port.c:arch_register_interrupt", "arch/riscv/rv32imac/picoRTOS_port.c:arch_register_interrupt", "arch/powerpc/e200z4/picoRTOS_port.c:arch_register_interrupt", "arch/stm8/picoRTOS_port.c:arch_register_interrupt", "arch/hcs08/picoRTOS_port.c:arch_register_interrupt", "arch/8051/picoRTOS_port.c:arch_register_interrupt", "arch/avr/picoRTOS_port.c:arch_register_interrupt", "arch/avr/picoRTOS_portasm.S", "arch/c2000/c28x/picoRTOS_port.c:arch_register_interrupt"]}
{"id": "C63", "title": "No interrupt is taken in a critical section, and interrupts are taken after it", "statement": "Between picoRTOS_suspend and picoRTOS_resume no maskable interrupt is taken by this core; after picoRTOS_resume pending interrupts are taken; none is taken between the initialisation of the port and the start of the first task. (False: on hcs08 the two instructions are exchanged, so critical sections run with interrupts on and interrupts stay off afterwards; on stm8 initialisation enables interrupts; on win32 a tick already under way switches tasks inside a critical section; on pthread SIGALRM is blocked in the calling thread only; critical sections do not nest on any port, and the atomic operations of the ports without atomic instructions re-enable interrupts inside one.)", "quantifier": "every processor state and every sequence of events between the two calls", "why_tests_cant": "an interrupt may arrive between any two instructions", "anchors": ["scheduler/picoRTOS.c:picoRTOS_suspend", "arch/include/picoRTOS_port.h:arch_suspend", "arch/hcs08/picoRTOS_port.c", "arch/stm8/picoRTOS_port.c:arch_init", "arch/avr/picoRTOS_port.c", "arch/8051/picoRTOS_port.c", "arch/arm/armv7e-m/picoRTOS_port.c", "arch/mips/m51xx/picoRTOS_port.c", "arch/win32/picoRTOS_port.c:arch_suspend", "arch/pthread/linux/picoRTOS_port.c:arch_suspend"]}
{"id": "C64", "title": "SMP: scheduler passes and critical sections of different cores exclude one another", "statement": "On an SMP system at most one core at a time is inside the scheduler (tick, syscall) or between picoRTOS_suspend and picoRTOS_resume. (False in a release build: a core that has polled the lock CONFIG_DEADLOCK_COUNT times goes ahead without it, and unlocks the core that has it when it leaves.)", "quantifier": "every number of cores, every interleaving of polls, acquisitions and releases, every CONFIG_DEADLOCK_COUNT", "why_tests_cant": "all interleavings of several cores, and a critical section longer than the bound", "anchors": ["arch/arm/armv6-m/mach-rp2040/picoRTOS-SMP_port.c:arch_spin_lock", "arch/powerpc/e200z4/mach-mpc574x/spinlock-sema42.c", "arch/powerpc/e200z7/mach-mpc577x/spinlock-sema4.c", "scheduler/picoRTOS-SMP.c:picoRTOS_suspend"]}
{"id": "C65", "title": "Ticks come at CONFIG_TICK_HZ", "statement": "On every port, for every core clock F and tick rate hz the port accepts, after arch_init the tick timer runs and the time between two successive ticks differs from F/hz core cycles by at most one count of the timer. (False where the reload value does not fit the counter or the prescaler is not the one assumed: armv7-m/armv6-m SysTick above 2^24 cycles; avr TC0 below 256 or above 2^18 cycles has no prescaler at all; hcs08 MTIM1 and RTC; stm8 AWU at 1 Hz; 8051 timer 2; the e200z7 STM programs the wrong register; the e200z7 decrementer is started with the time base disabled.)", "quantifier": "every core frequency, tick rate and initial register content", "why_tests_cant": "a board test sees one frequency and one tick rate; the claim is for all", "anchors": ["arch/arm/armv7-m/picoRTOS_port.c:arch_init", "arch/avr/timer-tc0.c:arch_timer_init", "arch/avr/timer-rtc.c", "arch/hcs08/mach-mc9s08ptxx/timer-mtim1.c", "arch/hcs08/mach-mc9s08ptxx/timer-rtc.c", "arch/stm8/mach-stm8s/timer-awu.c", "arch/8051/mach-cy7c6801xa/timer-t2.c", "arch/8051/mach-n76e003/timer-t2.c", "arch/8051/mach-n76e003/timer-wkt.c", "arch/powerpc/e200z7/mach-mpc577x/timer-stm.c", "arch/powerpc/e200z7/timer-dec.c", "arch/arm/armv6-m/mach-rp2040/picoRTOS-SMP_port.c", "arch/pthread/linux/picoRTOS_port.c", "arch/win32/picoRTOS_port.c"]}
{"id": "C66", "title": "Host ports: the task the scheduler chose runs, and no other", "statement": "On the pthread and win32 ports, between two turns of the scheduler exactly one task executes, the one the scheduler chose last. (False: on win32 a tick or system call that keeps the current task suspends it for good, both tasks run between ResumeThread and SuspendThread, and a wake-up that comes before the task has suspended itself is lost; on pthread a tick received by the main thread or by a waiting thread leaves two tasks running or the wrong one, a system call that keeps its task stops it, and a wake-up before sigwait is lost.)", "quantifier": "every number of threads, every interleaving of ticks, system calls and wake-ups, every choice of the scheduler and of the thread that receives the tick", "why_tests_cant": "the host decides which thread gets a signal and when it is preempted", "anchors": ["arch/win32/picoRTOS_port.c:arch_TICK", "arch/win32/picoRTOS_port.c:arch_syscall", "arch/pthread/linux/picoRTOS_port.c:arch_TICK", "arch/pthread/linux/picoRTOS_port.c:arch_syscall", "arch/pthread/linux/picoRTOS_port.c:arch_start_first_task"]}
{"id": "C67", "title": "Interrupt-driven uart_write: accepted bytes are transmitted in order, once, without a further call, and the value returned is the number of bytes accepted", "statement": "On the drivers where uart_write fills a fifo that an interrupt routine empties (avr, atsamx7x, 8051, n76e003): the bytes written to the data register are, in order, the bytes accepted from the callers' buffers; as long as some remain, the routine is going to run (no lost wake-up); on 8051 and n76e003 the data register is never written while it holds a byte; the values returned by uart_write add up to the number of bytes accepted. (The last clause is false on n76e003, where a byte refused because the fifo is full is counted, and on avr, where the whole length of the buffer is returned although only the first size - 2 bytes were taken.)", "quantifier": "every fifo size, every sequence of calls and buffers, every interleaving of the interrupt routine with the steps of uart_write, every readiness the hardware reports", "why_tests_cant": "the interrupt may come between any two accesses; the losses need a full fifo at the right moment", "anchors": ["drivers/uart/uart-avr_irqdriven.c:uart_write_irqdriven", "drivers/uart/uart-atsamx7x_usart_irqdriven.c:uart_write", "staging/drivers/uart/uart-8051_irqdriven.c:uart_write_irqdriven", "staging/drivers/uart/uart-n76e003_irqdriven.c:uart_write"]}
{"id": "C68", "title": "Interrupt-driven uart_read: received bytes are delivered in order, once, and lost only if too many wait", "statement": "On the same drivers: the concatenation of what successive calls of uart_read put in their buffers is a prefix of the bytes the interrupt routine stored; a call never puts more than it was asked for, stops short only after reading everything stored, and always ends; a received byte is dropped only if at least size - 2 bytes are waiting, so a task that keeps up reads exactly what came on the line.", "quantifier": "every fifo size, every sequence of calls and lengths, every interleaving of received bytes with the steps of uart_read", "why_tests_cant": "a byte may come between the pop and the load; order and losslessness are about all interleavings", "anchors": ["drivers/uart/uart-avr_irqdriven.c:uart_read_irqdriven", "drivers/uart/uart-atsamx7x_usart_irqdriven.c:uart_read", "staging/drivers/uart/uart-8051_irqdriven.c:uart_read_irqdriven", "staging/drivers/uart/uart-n76e003_irqdriven.c:uart_fifo_pop"]}
{"id": "C69", "title": "spi_xfer: the bytes on the wire are the message, and the buffer is what the peer answered", "statement": "A client transfers a message by calling spi_xfer(ctx, &rx[done], &tx[done], length - done) until done is the length. Then the bytes shifted out are a prefix of the message, each once and in order, and the whole message at the end; the bytes of the rx buffer below done are the answers of the peer in order; nothing outside the buffer is written; no answer is lost, however long the caller is preempted in the middle of a call, so the transfer completes.", "quantifier": "every driver keeping a balance of frames under way, every message of a whole number of frames, every answer, every interleaving of the controller with the calls and every depth of its fifos", "why_tests_cant": "whether an answer is lost depends on how many frames the controller shifts while the task is preempted between two instructions", "anchors": ["drivers/spi/spi-arm_pl022.c: spi_xfer", "drivers/spi/spi-atmel_sercom.c: spi_xfer", "drivers/spi/spi-atsamx7x.c: spi_xfer", "drivers/spi/spi-gd32vf103.c: spi_xfer", "drivers/spi/spi-pic32mx.c: spi_xfer", "drivers/spi/spi-renesas_ra4.c: spi_xfer", "drivers/spi/spi-stm32h7xx.c: spi_xfer", "drivers/spi/spi-ti_f28x.c: spi_xfer", "drivers/spi/spi-lgt8fx8p.c: spi_xfer"]}
{"id": "C70", "title": "External flash: erase, write, read and probe do what they say, however the SPI splits the messages", "statement": "Calling flash_ext_erase until it returns erases the sector of the offset, changes nothing else and leaves the memory ready; flash_ext_write writes the first n bytes (256 at most) of the data at the offset, changes nothing else and returns n; flash_ext_read fills the buffer with the contents of the memory; flash_ext_probe finds the identification and the size; quad_enable changes the QE bit only; each of them returns once the messages go through and the memory has finished, and can reach the whole memory.", "quantifier": "every memory contents, offset and data, every way spi_xfer splits the messages between calls, every duration of the operations of the memory", "why_tests_cant": "the state machine is resumed at any byte of any message; the number of splits and of status polls is unbounded", "anchors": ["drivers/flash-ext/flash-ext-s25fl1.c: run_cmd, run_busy, flash_ext_probe, flash_ext_erase, flash_ext_read, flash_ext_write, flash_ext_s25fl1_quad_enable", "drivers/flash-ext/flash-ext-sst26vf.c: run_cmd, run_busy, flash_ext_probe, flash_ext_erase, flash_ext_read, flash_ext_write"]}
{"id": "C71", "title": "CAN: the bit rate on the bus is the one asked, or the set-up fails", "statement": "When can_setup succeeds with a bit rate b on a controller clocked at f, the prescaler and segments left in the controller's timing register make it run at exactly b bits per second, sampled within one time quantum of 87.5 % of the bit; when it fails there is no such setting among the ones the driver looks for.", "quantifier": "every clock frequency and every bit rate up to the size of the C types, on every CAN driver", "why_tests_cant": "the registers are computed by a search with truncations and bit fields; a wrong setting shows only for the frequency/rate pairs that need it", "anchors": ["drivers/can/can-bosch_mcan.c: set_bitrate, set_data_bit_timing", "drivers/can/can-nxp_flexcan.c: nxp_flexcan_set_bitrate, nxp_flexcan_set_ctrl1", "drivers/can/can-sam3x.c: set_bitrate, set_brp_and_prop", "drivers/can/can-ti_dcan.c: set_bitrate, set_brp_and_tseg"]}
{"id": "C72", "title": "can_write: the frame on the bus is the frame asked", "statement": "When can_write(ctx, id, buf, n) returns n, exactly one free mailbox waits to transmit a frame with that identifier in the right format (11 bits below 2048, 29 bits above), n as length and buf[0] .. buf[n-1] as bytes in bus order, and every frame that was already waiting is unchanged. When it returns an error the set of frames waiting is unchanged.", "quantifier": "every identifier, every length, every contents of the buffer, every state of the mailboxes", "why_tests_cant": "loop-back tests send and receive with the same packing, so a permutation of the bytes or of the identifier bits cancels; the state space of mailboxes is large", "anchors": ["drivers/can/can-bosch_mcan.c: can_write", "drivers/can/can-nxp_flexcan.c: can_write, nxp_flexcan_write_mailbox", "drivers/can/can-sam3x.c: can_write, transfer_tx_mailbox, mailbox_config_mid", "drivers/can/can-ti_dcan.c: can_write, transfer_tx_mailbox, copy_data_to_mb"]}
{"id": "C73", "title": "can_read: what is returned is a frame that was received, once", "statement": "can_read returns one of the frames received and not yet read: its identifier, its length and its bytes at the beginning of the buffer; the frame is then consumed and the others stay; nothing is written outside the n bytes of the buffer; it returns -EAGAIN, without changing anything, exactly when no frame is waiting.", "quantifier": "every frame (identifier, length 0 to 8, bytes), every set of frames waiting, every buffer size, every history of arrivals and reads", "why_tests_cant": "the wrong cases are particular lengths, a full fifo, several acceptance filters: a test has to hit them together with the right reading order", "anchors": ["drivers/can/can-bosch_mcan.c: can_read", "drivers/can/can-nxp_flexcan.c: can_read, nxp_flexcan_read_mailbox", "drivers/can/can-sam3x.c: can_read, transfer_rx_mailbox", "drivers/can/can-ti_dcan.c: can_read, transfer_rx_mailbox, copy_mb_to_data"]}
{"id": "C74", "title": "can_accept: exactly the frames accepted are received", "statement": "After any sequence of can_accept(ctx, id, mask) calls, the controller stores a frame from the bus if and only if one of the calls that returned 0 has the same format and agrees with the frame's identifier on the bits of its mask; in particular CAN_ACCEPT_ANY accepts all the frames of the format and CAN_ACCEPT_STRICT only the identifier.", "quantifier": "every sequence of calls, every identifier and mask, every frame on the bus", "why_tests_cant": "the set of identifiers is 2^29 by 2^29 masks, and the number of calls is unbounded", "anchors": ["drivers/can/can-bosch_mcan.c: can_accept", "drivers/can/can-nxp_flexcan.c: can_accept", "drivers/can/can-sam3x.c: can_accept, mailbox_config_mam", "drivers/can/can-ti_dcan.c: can_accept"]}
{"id": "C75", "title": "Internal flash: what is reported written is in the flash, what is erased is what was asked", "statement": "Whatever the number of calls and whenever the flash controller is busy, the bytes that flash_write has reported as written are in the flash at the offset asked, in order, and nothing outside the range asked has changed; once all is reported the data is all there; flash_erase that returns 0 has erased the sector asked and no other; an error of the controller is reported.", "quantifier": "every offset, length, contents and page size, every schedule of calls and ends of operations, every error", "why_tests_cant": "the wrong cases need an unaligned beginning followed by a whole page, an offset other than 0, or a flash error, and the interleaving of calls with the end of operations is unbounded", "anchors": ["drivers/flash/flash-same5x.c: flash_write, flash_erase", "drivers/flash/flash-gd32vf103.c: flash_write, flash_erase", "drivers/flash/flash-atmel_eefc.c: flash_write, flash_erase, flash_lock, flash_unlock"]}
{"id": "C76", "title": "Software random number generator: same bytes whatever the read sizes, full period, never zero", "statement": "Seeded with anything but 0, the pseudo-random generator delivers through rng_read a stream of bytes that doesn't depend on how it is cut in reads of whole words, in which words repeat only after 2^32-1 words, every non-zero 32-bit word appears exactly once in each such period, and 0 never; a seed of 0 is accepted and gives only zeros.", "quantifier": "every seed, every sequence of read sizes, every rank in the stream", "why_tests_cant": "the period is 2^32-1 words for each of 2^32-1 seeds; the statement is about all pairs of ranks", "anchors": ["drivers/rng/rng-xorshift32.c: rng_xorshift32_init, rng_read"]}
{"id": "C77", "title": "AVR EEPROM: what is reported written is in the memory", "statement": "Whatever the schedule of calls and ends of operations, each byte that eeprom_write reports as written is the one found at its address once the hardware is idle, no other address changes, and eeprom_read returns the bytes of the memory; when the hardware is busy the caller is told to try again.", "quantifier": "every offset, contents, schedule of calls and of ends of operations", "why_tests_cant": "losses depend on the time between two calls; schedules are unbounded", "anchors": ["drivers/eeprom/eeprom-avr.c: eeprom_read, eeprom_write, eeprom_erase"]}
{"id": "C78", "title": "GPIO: a pin is driven by its own operations only", "statement": "gpio_write drives its pin to the value asked (inverted when so configured) and leaves all other pins of the port; gpio_toggle changes its pin and no other; gpio_read returns the level of its pin, inverted when so configured. When tasks or interrupt routines drive different pins of one port, each pin ends at the level that its own operations ask for, however they interleave.", "quantifier": "every driver, pin, state of the port, sequence of operations of any number of tasks and every interleaving of their register accesses", "why_tests_cant": "lost updates need an interruption between two accesses of one operation; interleavings are unbounded", "anchors": ["drivers/gpio/*.c: gpio_write, gpio_toggle, gpio_read", "staging/drivers/gpio/*.c"]}
{"id": "C79", "title": "AVR TWI master: what the application asks for is what the bus sees", "statement": "Whatever the messages (writes and reads, of any length, with or without START and STOP), the moments of the calls and the times taken by the interface, twi_write and twi_read put on the bus START, the address with the direction, the bytes of the buffer in order and STOP when asked, give the application exactly the bytes received in order (all acknowledged but the last), report a device that does not answer, and end.", "quantifier": "every sequence of messages, schedule of calls and interface events, acknowledges and bytes of the device", "why_tests_cant": "messages, split calls and bus timings are unbounded; a test sees one schedule", "anchors": ["drivers/twi/twi-avr.c: twi_write, twi_read"]}
{"id": "C80", "title": "DesignWare I2C master: what the application asks for is what the bus sees", "statement": "Whatever the messages, the depth of the FIFO, the moments of the calls and the speed of the interface, twi_write and twi_read put on the bus START, the address with the direction, the bytes of the buffer in order and STOP, give the application exactly the bytes received in order, and a message reported as written gets completely to the bus; a device that does not acknowledge is reported to the message concerned.", "quantifier": "every FIFO depth, sequence of messages, schedule of calls and steps of the interface", "why_tests_cant": "the FIFO may be at any level at each access of the driver; schedules are unbounded", "anchors": ["drivers/twi/twi-dw_apb_i2c.c: twi_write_as_master, twi_read_as_master, twi_rw_as_master_check_abort"]}
{"id": "C81", "title": "PWM: the period and the duty cycle asked for are those of the output", "statement": "When pwm_set_period(pwm, p) succeeds, a period of the output lasts p microseconds to one count of the timer, whatever the frequency of the clock and the prescaler; pwm_set_duty_cycle(pwm, d) makes the output active for d/65535 of the period (to a few counts), 0 gives 0, 65535 the whole period, and a larger duty cycle never gives a shorter pulse. Stated per driver; the exact conditions under which it holds, or the refutation, are the theorems.", "quantifier": "every clock frequency, prescaler, period and duty cycle, for each of the 17 PWM drivers", "why_tests_cant": "frequencies, prescalers, periods and duty cycles are 16- to 32-bit numbers each; truncations and overflows show only for some combinations", "anchors": ["drivers/pwm/pwm-*.c: pwm_set_period, pwm_set_duty_cycle", "staging/drivers/pwm/pwm-ch552.c, pwm-mc9s08ptxx_ftm.c, pwm-n76e003.c", "drivers/pwm/pwm-avr.c: set_clock_select", "drivers/pwm/pwm-gd32vf103.c: set_frequency"]}
{"id": "C82", "title": "UART: the baud rate asked for is that of the line", "statement": "When uart_setup(uart, {baudrate b}) succeeds on a peripheral whose clock runs at F, a bit on the line lasts 1/b second to one step of the driver's divider (half a step where the driver rounds); a rate the divider cannot produce is refused instead of another rate being configured. Stated per driver: the exact conditions under which it holds, or the refutation, are the theorems.", "quantifier": "every clock frequency and baud rate, for each of the UART drivers", "why_tests_cant": "frequency and baud rate are 32-bit numbers; overflows, truncations and out-of-range dividers show only for some pairs", "anchors": ["drivers/uart/uart-*.c: set_baudrate, uart_setup", "staging/drivers/uart/uart-*.c: set_baudrate"]}
{"id": "C83", "title": "UART: the character format asked for is the one on the line", "statement": "After a successful uart_setup, the number of data bits, the parity and the number of stop bits of a character are those asked for, each setting given as 'ignore' (0) keeps its value, a new baud rate is in use, and no other configuration bit is altered; sizes, parities and stop bits the driver cannot provide are refused. Stated per driver; the exact conditions or the refutation are the theorems.", "quantifier": "every settings structure and every previous content of the registers, for each of the UART drivers that write a format", "why_tests_cant": "what 'ignore' must keep depends on every earlier configuration (all register contents); tests set a UART up once and in one format", "anchors": ["drivers/uart/uart-*.c: set_cs, set_parity, set_cstopb, uart_setup", "staging/drivers/uart/uart-mc9s08ptxx_sci.c: set_parity"]}
{"id": "C84", "title": "Polled UARTs: bytes accepted are sent in order, once; bytes delivered are those received, in order, once", "statement": "uart_write returns the number n of bytes taken from the front of the buffer: exactly those n bytes follow what was already on its way, in order, once, and no byte written overwrites another; -EAGAIN means nothing was taken. uart_read returns at most n bytes; over any sequence of calls the bytes delivered are those that arrived, in order, once, with only as many missing as arrived while the receiver was full; -EAGAIN means there is none. Stated per driver, with refutations.", "quantifier": "every sequence of calls and buffers, every depth of FIFO, every interleaving of the line with the accesses of the driver", "why_tests_cant": "the line moves concurrently with the polling loop: losses and duplicates show only for some interleavings, overruns and framing errors only on a bad day", "anchors": ["drivers/uart/uart-*.c: uart_write, uart_read", "staging/drivers/uart/uart-8051.c, uart-mc9s08ptxx_sci.c, uart-n76e003.c: uart_write, uart_read"]}
{"id": "C85", "title": "A watchdog that is set up and started resets the system if, and only if, it is not refreshed in time", "statement": "After wd_setup with a period (and window) and wd_start, for any sequence of clock cycles and of calls of wd_start, wd_stop and wd_refresh: the system is reset exactly if, at some time when the watchdog was started and not stopped, the period asked went by without a refresh, or (window) a refresh came too early. The period is the one asked, in the units of the API. wd_stop stops the watchdog and wd_start starts it again. Stated per driver, with refutations.", "quantifier": "every setting accepted by wd_setup, every clock frequency, every history of cycles and calls", "why_tests_cant": "a watchdog is the last resort: whether it fires depends on the whole history of calls and cycles, and a wrong timeout shows only when the program hangs", "anchors": ["drivers/wd/wd-*.c: wd_setup, wd_start, wd_stop, wd_refresh"]}
{"id": "C86", "title": "adc_read gives each object new conversions of its own channel", "statement": "Whatever the history of conversions and of calls of adc_read by the objects of a block, every value delivered to an object is a conversion of the channel of that object, made after the previous value delivered to it (no value is delivered twice) and not before the block was started; and an object that goes on asking, while the hardware runs, is given a value. Proved per driver: for any interleaving of the objects where the hardware keeps one result per channel, and when the objects take turns (one asks until it is served) where there is one result register; refuted otherwise.", "quantifier": "every history of conversions and of calls, every number of objects sharing the block", "why_tests_cant": "the wrong channel is delivered only for particular interleavings of the callers and the converter", "anchors": ["drivers/adc/adc-*.c: adc_read", "staging/drivers/adc/adc-*.c: adc_read"]}
{"id": "C87", "title": "Values are scaled as asked by adc_setup, and adc_read_multiple gives the results of the object's own units", "statement": "The value given for a raw result is result * multiplier / divider + offset (0 <= each intermediate value in the range of int), monotone in the result; an object not set up gives the raw result; a second adc_setup replaces the first. adc_read_multiple (ti_type4) gives the results of the conversion units of the object, in order, and returns how many it gave. Refuted where the raw result is cast to a signed type that is too small, for a divider of 0, and for the number returned by objects that are not the first of their block.", "quantifier": "every raw result, multiplier, divider, offset; every list of objects initialised", "why_tests_cant": "overflow and sign depend on the whole range of results and settings", "anchors": ["include/adc.h: ADC_READ macros", "drivers/adc/adc-*.c: adc_setup, adc_read", "drivers/adc/adc-ti_type4.c: adc_read_multiple"]}
{"id": "C88", "title": "The set-up of ADC channels makes the hardware convert the channels of the objects, as set up", "statement": "After any sequence of channel initialisations accepted by the driver, the block converts the channels of the objects, in the order in which the driver looks for the results, and the settings of one channel (sampling time, trigger, mode, clock) are those asked and leave the other channels alone. Stated per driver, with refutations.", "quantifier": "every list of channels, every setting, every previous content of the registers reachable by set-ups", "why_tests_cant": "errors show only for some channels (a field that moves to the next register) or some numbers of channels", "anchors": ["drivers/adc/adc-*.c: adc_*_init, adc_setup", "staging/drivers/adc/adc-gd32vf103.c"]}
{"id": "C89", "title": "spi_setup: the bit rate", "statement": "When spi_setup returns 0 for a bit rate, the clock of the SPI runs at the rate asked to the Hz (gd32vf103, renesas_ra4, nxp_dspi, mc9s08ptxx), or at the fastest rate available not above it (stm32h7xx, avr), or at the slowest rate available not below it (arm_pl022, atmel_sercom, atsamx7x, sam3x, pic32mx, ti_f28x, tinyavr, ch552, n76e003), within one divider step (atsamx7x_qspi); a rate of 0 leaves the clock as it was; and every rate the hardware can produce, in the range stated, is accepted. Refuted outside the ranges stated: rates that wrap in a narrow field and come out much faster than asked.", "quantifier": "every clock frequency, every rate, every other setting, every previous content of the registers", "why_tests_cant": "the wrong rates come from quotients past the width of a field, read past a table, or from what was set before", "anchors": ["drivers/include/spi.h: struct spi_settings", "drivers/spi/spi-*.c: set_bitrate, spi_setup", "staging/drivers/spi/spi-*.c"]}
{"id": "C90", "title": "spi_setup: clock mode, frame size, role and chip select", "statement": "When spi_setup returns 0, the polarity and the phase of the clock are those of the mode asked, the frames have the number of bits asked (in the hardware and in the eyes of spi_xfer), the controller is the master or the slave as asked, the chip select and its polarity are as asked, each setting left at 0 (ignore) is as it was before, and the controller is on. Refuted for the drivers that lose other settings when a rate is set, invert the phase, shift the mode by one, reset the block, or accept any frame size.", "quantifier": "every combination of settings, every previous content of the registers", "why_tests_cant": "one setting spoils another only for some combinations and some previous contents", "anchors": ["drivers/include/spi.h: struct spi_settings", "drivers/spi/spi-*.c: set_clkmode, set_frame_nbits, set_mode, set_cs_pol, spi_setup", "staging/drivers/spi/spi-*.c"]}
{"id": "C91", "title": "DMA: exactly what was asked is moved", "statement": "For every schedule of requests and calls, the units a DMA channel moves are the first k units of the transfer asked, in order, each unit of the size asked, from the source address advancing by one unit when incr_read is set (else fixed) to the destination address advancing when incr_write is set, never more than the byte count asked; so the memory after a memory copy that is done is the wanted copy. Refuted where a driver writes a reserved or wrapped width, a peripheral step of its own, a count cut to its field, or restarts a transfer that had ended.", "quantifier": "every transfer (addresses, sizes, counts, increments, circular or not), every previous state of the channel, every schedule of peripheral requests", "why_tests_cant": "the wrong moves need sizes, counts and remainders past a field, and requests at particular moments", "anchors": ["drivers/include/dma.h: struct dma_xfer, dma_setup, dma_xfer", "drivers/dma/dma-*.c", "staging/drivers/dma/dma-*.c"]}
{"id": "C92", "title": "DMA: what starts a transfer", "statement": "After dma_setup the channel moves one unit per request of the peripheral selected and none without; after dma_xfer it moves without any request; in circular mode it starts over when it has ended. Refuted for gd32vf103, stm32h7xx and ti_f28x (dma_xfer never starts anything), atmel same5x (dma_xfer moves one unit only), nxp_edma (a single request moves the whole transfer, and the next moves it again), rp2040 (a channel used once by dma_xfer is no longer paced).", "quantifier": "every transfer, every schedule of requests, every history of calls on the channel", "why_tests_cant": "the pacing shows only in the schedules where requests are late or come again", "anchors": ["drivers/include/dma.h: dma_setup, dma_xfer", "drivers/dma/dma-*.c", "staging/drivers/dma/dma-*.c"]}
{"id": "C93", "title": "DMA: dma_xfer_done", "statement": "dma_xfer_done returns 0 exactly when every unit of the transfer asked has been moved, and -EAGAIN before; it moves nothing and disturbs nothing. Refuted for ti_f28x (the call itself halts the channel), stm32h7xx (an empty transfer is never done), nxp_edma (done before anything has moved).", "quantifier": "every transfer and every moment of the call", "why_tests_cant": "a poll between two units is a matter of timing", "anchors": ["drivers/include/dma.h: dma_xfer_done", "drivers/dma/dma-*.c", "staging/drivers/dma/dma-*.c"]}
{"id": "C94", "title": "MUX: a pin does what was asked last and no other pin changes", "statement": "After a successful call of the multiplexer driver on a pin, the pin has the direction, the function, the level and the pull asked; every other pin and every setting not named by the call are as before; so after any sequence of calls the configuration of a pin is determined by the last calls on that pin. Refuted for nxp_siul2 (residues of the previous function), same5x (a pin that was an input or a function keeps the function and its input buffer), renesas_ra4 and rp2040 (pulls lost), 8051 family (port 2 is not configured).", "quantifier": "every port, every pin, every call, every previous content of the registers, every sequence of calls", "why_tests_cant": "the residue of an earlier call shows only for particular pairs of calls, and the neighbours are as many as the pins", "anchors": ["drivers/mux/mux-*.c", "staging/drivers/mux/mux-*.c"]}
{"id": "C95", "title": "Clocks: the frequency told is the frequency of the clock", "statement": "After a successful initialization of the clock driver, clock_get_freq of every clock identifier returns the frequency (rounded down to 1 Hz) that the oscillator, PLL and dividers programmed in the registers really give, or an error for a clock that doesn't exist; a frequency asked of a PLL is the one told and the one made. Refuted where the driver rounds before multiplying, keeps the record of an earlier setting, overflows or writes a wrapped field (rp2040, gd32vf103, ti_f28x, renesas_ra4, atmel_pmc, stm32h7xx, same5x, pic32mx, sam3x_pmc, numicro, n76e003, cy7c6801xa, mpc574xx, nxp_siu, ch32v003, ch552, mc9s08ptxx, stc12c5axx, stm32f10xxx, stm32f401x, stm32l4x).", "quantifier": "every configuration given to the initialization, every crystal frequency, every previous content of the registers, every clock identifier, and every outcome of the waits", "why_tests_cant": "the space of PLL factors and dividers is large and the wrong cases are the ones where a division isn't exact or a product overflows; a test reads back the record, not the oscillator", "anchors": ["drivers/include/clock.h: clock_get_freq", "drivers/clock/clock-rp2040.c", "drivers/clock/clock-gd32vf103.c", "drivers/clock/clock-tinyavr.c", "drivers/clock/clock-f28379x.c", "staging/drivers/clock/clock-stm8.c", "drivers/clock/clock-renesas_ra4.c", "drivers/clock/clock-atmel_pmc.c", "drivers/clock/clock-stm32h7xx.c", "drivers/clock/clock-same5x.c", "drivers/clock/clock-pic32mx.c", "staging/drivers/clock/clock-ch32v003.c", "staging/drivers/clock/clock-ch552.c", "staging/drivers/clock/clock-mc9s08ptxx.c", "staging/drivers/clock/clock-stc12c5axx.c", "staging/drivers/clock/clock-lgt8fx8p.c", "staging/drivers/clock/clock-stm32f10xxx.c", "staging/drivers/clock/clock-stm32f401x.c", "staging/drivers/clock/clock-stm32l4x.c"]}
{"id": "C96", "title": "Clocks: a gate call acts on the clock named and on no other", "statement": "A successful call that enables (disables) a peripheral's clock makes that peripheral's clock run (stop) and leaves every other gate as it was; every peripheral the driver names is accepted. Refuted for atmel_pmc (identifiers from 64 act on another peripheral, a programmable clock is never stopped), stm32h7xx (SAI4), stm32f10xxx (SDIO) and sam3x_pmc (the clocks that are not peripherals: success, nothing done).", "quantifier": "every identifier, every previous state of the gates", "why_tests_cant": "the neighbours are as many as the bits of the gate registers", "anchors": ["drivers/clock/clock-*.c: *_enable, *_disable, *_module_start, *_module_stop"]}
{"id": "C97", "title": "Multiplication, division and remainder are right on the core that has none", "statement": "On the ch32v003, whose core has neither multiply nor divide instructions, every product, quotient and remainder of 32-bit integers, signed or unsigned, that a C program computes is the right one: the product modulo 2^32, the quotient truncated towards zero, the remainder with the sign of the dividend; a division by zero returns (all ones, the remainder being the dividend) instead of hanging, and the routine always returns to its caller.", "quantifier": "every pair of operands, every content of the other registers and every return address", "why_tests_cant": "2^64 pairs of operands; the wrong ones of a shift-and-subtract routine are at the edges (most significant bit set, the most negative integer, zero divisor)", "anchors": ["arch/riscv/rv32ec/mach-ch32v003/gcc/muldi3.S: __mulsi3", "arch/riscv/rv32ec/mach-ch32v003/gcc/div.S: __divsi3, __udivsi3, __modsi3, __umodsi3"]}
{"id": "C98", "title": "When main() is called the variables have their initial values", "statement": "Whatever is in the memory and in the registers at reset, the startup code comes to its end and then every initialised variable has its initial value, every other static variable is zero, text that runs from RAM is what was linked, and nothing else in the memory has changed. Refuted for the small zero data (.sbss) of the RISC-V machines, which keep what was in the RAM, and of the PowerPCs, where they contain addresses left by the initialisation of the ECC.", "quantifier": "every content of memory and registers, every layout the linker makes (sizes and places of the sections, none over another), every machine", "why_tests_cant": "a RAM is usually zero in a simulator and after a debugger's load, and the sections' sizes change with every program", "anchors": ["arch/arm/include/macros.S", "arch/riscv/include/macros.S", "arch/mips/include/macros.S", "arch/powerpc/e200z4/include/macros.S", "arch/powerpc/e200z7/include/macros.S", "arch/*/*/mach-*/startup.S: Reset_Handler", "samples/ldscripts", "arch/8051/include/macros.S", "arch/stm8/include/macros.S", "arch/hcs08/include/macros.S"]}
{"id": "C99", "title": "twi_setup: the bit rate", "statement": "When twi_setup accepts a bit rate, the clock of the bus is not faster than that (the slaves need it), by a bit per second or more, and a bit is not longer than asked by more than a few cycles of the clock; a bit rate that cannot be made is refused. True of AVR and RA4; refuted for the others: sercom (up to 1 Mbit/s the divider has nothing to do with the rate), sam3x (up to 124 cycles short; ordinary rates refused), pic32mx (2 cycles short; impossible rates accepted), ti_f28x (the prescaler is not written, low rates too fast), dw_apb_i2c and stm32h7xx (low rates too fast), gd32vf103 (odd dividers too fast, fast mode 1.5 times too slow), mc9s08ptxx (compares the rate with the divider: 100 kbit/s always refused), n76e003 and nxp_i2c (dividers cut or mistaken).", "quantifier": "every clock frequency and every bit rate, every driver", "why_tests_cant": "millions of frequencies and rates; the errors are at dividers that do not fit the registers or are not exact", "anchors": ["drivers/twi/*.c: set_bitrate", "staging/drivers/twi/*.c: set_bitrate", "drivers/include/twi.h: twi_setup"]}
{"id": "C100", "title": "I2C FRAM: what is written is what is read", "statement": "A write to the FRAM chip repeated until it ends (the calls return -EAGAIN in between) changes exactly the bytes asked, at the addresses asked, to the values given; a read repeated likewise returns exactly the bytes stored and changes nothing; the calls end, and the answer is the number of bytes or an error. Over the AVR TWI driver this is true for ranges inside the chip with the chip present; refuted: an absent chip is polled for ever, an operation past the end leaves the driver in the middle of a message so that the next write goes to a wrong address, no STOP follows a write; over twi-dw_apb_i2c the bytes behind the address variable are sent because the flag that forbids the STOP is implemented by no driver.", "quantifier": "every content of the chip, every address, every buffer and length, every schedule of the bus (how many calls return -EAGAIN)", "why_tests_cant": "the driver is re-entered an unbounded number of times in each state, and the errors are at the limits of ranges and with a chip that does not answer", "anchors": ["drivers/eeprom/eeprom-cy15b004j.c: eeprom_read, eeprom_write", "drivers/twi/twi-avr.c: twi_read, twi_write", "drivers/twi/twi-dw_apb_i2c.c: twi_write"]}
{"id": "C101", "title": "spi_xfer on controllers without FIFO: the wire carries the message, the buffer the answers", "statement": "A client transfers a message by calling spi_xfer(ctx, &rx[done], &tx[done], length - done) until done is the length. At any moment the bytes on the wire are a beginning of the message, and the whole message, once, at the end; the bytes of the rx buffer below done are the peer's answers, in order, and no other byte of the buffer is written; no answer is lost and no transfer gets stuck. Holds for the AVR (polled, and driven by interrupts with FIFOs of at least one byte), the USARTs of the AVR and ch552. Refuted: n76e003 (a byte that ends between the two tests of a call is sent twice), mc9s08ptxx (a call while a byte is shifted sends it twice). Driven by interrupts, the peer is selected once for a message: true if it fits the FIFO, refuted for a longer one; with a FIFO mask of 0 or 1, which is accepted, nothing is ever transferred.", "quantifier": "every message, every answer, every interleaving of the controller, the interrupt routine and the calls, every FIFO size", "why_tests_cant": "whether a byte is sent twice depends on the instant at which the controller ends a byte, and the interrupt can come between any two instructions of the call", "anchors": ["drivers/spi/spi-avr.c: spi_xfer", "drivers/spi/spi-avr_irqdriven.c: spi_xfer, spi_isr", "staging/drivers/spi/spi-ch552.c: spi_xfer", "staging/drivers/spi/spi-n76e003.c: spi_xfer", "staging/drivers/spi/spi-mc9s08ptxx.c: spi_xfer", "drivers/spi/spi-avr_usart.c: spi_xfer, run_state_start, run_state_xfer"]}
{"id": "C102", "title": "Input PWM: the period and the duty cycle told are those of the signal", "statement": "For a stable periodic signal on the input, whenever the calls are made, ipwm_get_period returns -EAGAIN or stores the period of the signal in microseconds (rounded down), and answers once two periods have passed; ipwm_get_duty_cycle returns -EAGAIN or stores the part of the time the signal is high, of 65535. Holds with conditions, which are all needed (refuted without): nxp_emios - the period under 4295 counts, the tick at most 65537 counts; sam3x_tc - a clock of a whole number of MHz (else wrong, below 1 MHz a division by zero), the duty cycle only if the measure began while the input was inactive and is asked after the whole period (else a division by zero or a wrong value), and as H * (65535 / P), which is 0 for every period above 65535 counts; rp2040 - the period within the factors given by the number of ticks and of edges, and it answers from the first tick on, when they allow anything; the duty cycle only for calls exactly some ticks apart and without overflow of the counter of 16 bits, which overflows within a tick with the divider of the init.", "quantifier": "every period, duty cycle and phase of the signal, every instant of the calls, every clock", "why_tests_cant": "the value depends on the phase between the signal, the calls and the tick; products overflow only for some periods", "anchors": ["drivers/pwm/pwm-nxp_emios.c: ipwm_get_period, ipwm_get_duty_cycle", "drivers/pwm/pwm-sam3x_tc.c: ipwm_get_period, ipwm_get_duty_cycle", "drivers/pwm/pwm-rp2040.c: ipwm_get_period, ipwm_get_duty_cycle"]}
{"id": "C103", "title": "Start of the second core: started as asked, and core 0 goes on only when it idles", "statement": "When arch_core_init (rp2040) returns with success, core 1 runs its idle task and was started with exactly the vector table, the stack and the entry point given, whatever the FIFOs held and wherever the boot ROM of core 1 was; with nothing on its way to core 1 beforehand, core 1 is never started with anything else, even if waits of core 0 run out in any place, and while no wait runs out the call never deadlocks and can always still end. The stack given is the last word of the area of core 1. (If the wait for the last echo runs out, core 1 is started and arch_core_init never succeeds: proved too.)", "quantifier": "every content of the FIFOs, every state of the boot ROM, every interleaving of the two cores, every timeout, every table, stack and entry other than 0", "why_tests_cant": "needs two cores and every interleaving between them, and stale FIFO contents", "anchors": ["arch/arm/armv6-m/mach-rp2040/picoRTOS-SMP_port.c: arch_core_init, arch_xfer_to_core1, arch_flush_rd_fifo, core1_start_first_task, arch_idle"]}
{"id": "C104", "title": "spi_xfer with DMA: every frame sent, every answer at its place", "statement": "spi_xfer with two DMA channels, called until it does not return -EAGAIN, returns only when every frame of the message was exchanged in order and the answer to the i-th frame is the i-th of the buffer, whatever the order in which the channels and the wire move frames; between messages nothing is exchanged. As long as no answer was lost, the call can always still return; once one was lost (FIFO of reception full) it never returns anything. (Proved false beyond: a message that is not a multiple of the frame, or of more frames than the counter of a channel holds, returns its full length although frames were not exchanged.)", "quantifier": "every sequence of messages, every interleaving of calls, DMA moves and frames on the wire, every depth of the FIFOs, every frame width", "why_tests_cant": "the channels run concurrently with the wire; a test sees one interleaving", "anchors": ["drivers/spi/spi-arm_pl022.c: spi_xfer_dma_start, spi_xfer_dma_wait, spi_xfer_dma", "drivers/spi/spi-gd32vf103.c: spi_xfer_dma", "drivers/spi/spi-atmel_sercom.c: spi_xfer_dma", "drivers/spi/spi-ti_f28x.c: spi_xfer_dma", "drivers/spi/spi-stm32h7xx.c: spi_xfer_dma"]}
{"id": "C105", "title": "CPU usage statistics measure the time a task had the processor", "statement": "With a counter that measures exactly (C61), the low and high watermarks of a task bound, and are attained by, the durations for which it had the processor between two passes of the scheduler, in every history of the single-core scheduler. On SMP the duration measured is right if no other core had a tick since the task was given the core. (Proved false otherwise on SMP: a tick of any core resets the reading of every task, also of those running on other cores, and the value measured is the absolute count.)", "quantifier": "every configuration, task set, history and time of every event; on SMP every interleaving of the cores", "why_tests_cant": "histories with times; on SMP the error depends on the interleaving of ticks of different cores", "anchors": ["scheduler/picoRTOS.c: task_core_stat_start, task_core_stat_finish, picoRTOS_tick, syscall_switch_context", "scheduler/picoRTOS-SMP.c: task_core_stat_start, task_core_stat_finish, picoRTOS_tick, syscall_switch_context"]}
{"id": "C106", "title": "SMP: tasks are ordered by priority, shared priorities get distinct turns and never run together", "statement": "On SMP, after picoRTOS_start the tasks are in order of priority, those of one priority in the order they were added with their own stack, priority and cores, none lost; the k tasks of a priority have the turns 0..k-1 out of k whatever their cores; at any time exactly one of them has its turn; and two different tasks of one priority are never given cores during the same system tick (a core idles rather than run a task of the same priority as one that has its turn: proved by an example).", "quantifier": "every configuration, number of cores, task set and interleaving of the cores", "why_tests_cant": "any number of tasks and cores, any interleaving", "anchors": ["scheduler/picoRTOS-SMP.c: core_sort_tasks, core_arrange_shared_priorities, picoRTOS_start, task_core_is_available, picoRTOS_tick"]}
{"id": "C107", "title": "SMP: tasks moved between cores find their stacks, and passes the scheduler state, though the caches are not coherent", "statement": "On cores with non-coherent write-through caches (as the e200 ports set them up), a byte of the stack of a task at or above its stack pointer when it was resumed, or written since, always reads as last written, whatever cores the task ran on, including what picoRTOS_sleep_until is given back by the scheduler; during a pass the scheduler reads its own state as last written by any core, whatever the write policy; outside of a pass (picoRTOS_get_tick, picoRTOS_self) a core reads each line of that state as it was at one moment since its own last pass, so its own pid and the state of its task are right. (Proved false: picoRTOS_get_tick may return a tick that another core has already left behind; and with write-back caches the reference of picoRTOS_sleep_until is lost, being written after the flush.)", "quantifier": "every layout of stacks, number of cores and tasks, interleaving, and every fill and eviction of cache lines", "why_tests_cant": "hosts are coherent; depends on which lines happen to be in which cache", "anchors": ["scheduler/picoRTOS-SMP.c: picoRTOS_syscall, picoRTOS_tick, picoRTOS_sleep_until, picoRTOS_get_tick, picoRTOS_self", "arch/powerpc/e200z4/picoRTOS_port.c: arch_flush_dcache_opt, arch_invalidate_dcache_opt", "arch/powerpc/e200z4/include/macros.S: INVALIDATE_AND_ENABLE_CACHE"]}
{"id": "C108", "title": "PWM: an output runs if, and only if, it was started and not stopped since", "statement": "After any sequence of calls of pwm_start, pwm_stop, pwm_set_period and pwm_set_duty_cycle on the outputs of a PWM block, an output has a waveform if, and only if, the last pwm_start or pwm_stop made for it is pwm_start; also when each output belongs to a task and their calls interleave. (Proved for gd32vf103, emios, tinyavr_tca, ch552, mc9s08ptxx, n76e003 without interleaving, for emios and pic32mx with it. Proved false: sam3x and atsamx7x outputs never stop; ti_epwm's pwm_stop starts the counter; with sam3x_tc, atsamx7x_tc, avr, ra4, rp2040 and same5x the outputs of a counter start and stop together, with stm32h7 they stop together; pic32mx outputs that were never started run as soon as another one of their timer does; with gd32, tinyavr, mc9s08 a pwm_stop may be lost if another task's is under way.)", "quantifier": "every sequence of calls, every output, every setting, every interleaving of the tasks' register accesses", "why_tests_cant": "the effect of a call depends on the calls made for other outputs before it and on the interleaving with other tasks", "anchors": ["drivers/include/pwm.h: pwm_start, pwm_stop", "drivers/pwm/*.c: pwm_start, pwm_stop", "staging/drivers/pwm/*.c: pwm_start, pwm_stop"]}
{"id": "C109", "title": "Between two ticks every eligible task is served in order of urgency, and idle runs only then", "statement": "Between two ticks, as long as nobody postpones, the processor goes from each task to a strictly less urgent one: no task has it twice and it changes hands at most CONFIG_TASK_COUNT times. Whatever the tasks do (picoRTOS_postpone included), a task that was eligible at the tick has had the processor before a less urgent task or idle has it; it is left out until the next tick only if a more urgent task keeps the processor to the end, and then it is still ready. The lite scheduler does the same. On SMP a task that waits all along is not passed over by a core it may run on for a less urgent one or for idle.", "quantifier": "every configuration, set of tasks, tick and history of calls between two ticks (on any core)", "why_tests_cant": "a statement about all histories of calls within a tick, not about one call", "anchors": ["scheduler/picoRTOS.c: picoRTOS_tick, picoRTOS_syscall, switch_context", "scheduler/picoRTOS-lite.c: picoRTOS_tick, picoRTOS_syscall", "scheduler/picoRTOS-SMP.c: picoRTOS_tick, picoRTOS_syscall"]}
{"id": "C110", "title": "A mutex excludes and is given back though the caches are not coherent", "statement": "On cores with non-coherent write-through caches (as the e200 ports set them up) at most one task has a mutex, picoRTOS_mutex_unlock stalls nobody who has it, a task that has it can take it again, and when everybody gave it back it is free; whatever the caches load and drop, and though tasks change cores. (False if tasks change cores inside a call: two tasks may have the mutex, one of them finding itself the owner in an old copy on its new core. False, even if they do not, where arch_compare_and_swap leaves the copy of its core in the cache: the mutex may stay taken for ever though everybody gave it back.)", "quantifier": "every number of tasks and cores, interleaving of their accesses, loads and evictions of the line, moves of tasks", "why_tests_cant": "depends on the interleaving of accesses and on when the hardware loads a line", "anchors": ["ipc/picoRTOS_mutex.c: picoRTOS_mutex_trylock, picoRTOS_mutex_unlock", "ipc/picoRTOS_mutex.h: struct picoRTOS_mutex", "arch/powerpc/e200z7/picoRTOS_portasm.S: arch_compare_and_swap"]}
{"id": "C111", "title": "A futex excludes and is given back though the caches are not coherent", "statement": "On cores with non-coherent write-through caches at most one task has a futex, wherever tasks move and whatever the caches load and drop, and picoRTOS_futex_unlock does not stall the task that has it. (The latter is false if a task changes cores while it has the futex, even if it is the only task that ever uses it: it may find the 0 of an earlier unlock in the cache of its new core, and the futex then stays taken for ever; and where arch_compare_and_swap leaves the copy of its core in the cache, even if it does not move.)", "quantifier": "every number of tasks and cores, interleaving of their accesses, loads and evictions of the line, moves of tasks", "why_tests_cant": "depends on the interleaving of accesses and on when the hardware loads a line", "anchors": ["ipc/picoRTOS_futex.c: picoRTOS_futex_trylock, picoRTOS_futex_unlock", "arch/powerpc/e200z7/picoRTOS_port.c: arch_test_and_set"]}
{"id": "C112", "title": "Internal flash of the MPC57xx and SAM3X: what is reported written is there, the block asked for is erased or locked", "statement": "On the MPC57xx, calling flash_write again with what remains, at any times and whatever the operations of the flash take: the bytes reported written are in the flash at the offset asked, in order, nothing else has changed, and the transfer ends if the operations do; flash_erase, flash_lock and flash_unlock of a block number act on that block and no other, and blankcheck tells whether it is blank. (False: the offsets flash.h documents, of any block but the first, are refused or taken for block numbers; an init that leaves `state` as it was makes the first flash_write report bytes never written; blankcheck of blocks 7, 8 and 9 of the MPC577x says nothing about them. flash_sam3x_init always fails; flash_erase, flash_lock and flash_unlock of an idle SAM3X driver return -EAGAIN for ever.)", "quantifier": "every offset, amount, contents, locks, schedule of calls and ends of operations, and outcome of them", "why_tests_cant": "depends on the schedule and on every offset and content", "anchors": ["staging/drivers/flash/flash-nxp_c55fmc.c: flash_write, flash_erase, flash_lock, flash_unlock, flash_nxp_c55fmc_blankcheck", "staging/drivers/flash/flash-sam3x.c: flash_sam3x_init, flash_erase, flash_lock, flash_unlock", "arch/powerpc/e200z7/mach-mpc577x/picoRTOS_device.h", "arch/powerpc/e200z4/mach-mpc574x/picoRTOS_device.h"]}
{"id": "C113", "title": "1-wire on a UART: bytes go out bit by bit, resets are sent and bytes are read", "statement": "Calling w1_write of each byte until it returns 1 sends the slot of each of its bits once, least significant first, and nothing else, whatever the UART refuses and the schedule; eight calls the UART accepts are enough. Calling w1_reset until it returns 0 sends one reset pulse. w1_read gives the bits received, in the same order. (False: a UART that cannot do the rates makes w1_write return -EAGAIN for ever; the slot of a 0 holds the line low for 42 us, where 1-wire asks for 60 us; w1_reset returns 0 though nobody is on the bus, and without a pulse if an earlier one was given up; it does not forget a byte given up, so that the next is cut; w1_read adds bits to what the buffer held, holds the line low so that it reads zeros whatever the slave answers, and may return echoes of bytes written before.)", "quantifier": "every byte sequence, answers of the UART and of the slaves, schedule of calls and receptions", "why_tests_cant": "depends on the answers of the UART and on the schedule", "anchors": ["staging/drivers/w1/w1-uart.c: w1_write, w1_read, w1_reset", "drivers/include/w1.h"]}
{"id": "C114", "title": "LIN interface of the MPC57xx: the frame asked for is sent, the answer of the slave is returned", "statement": "A master that calls lin_write(id, data, n) until it does not return -EAGAIN puts one frame on the bus, with that id, length and data, and is told n once it has been sent; with lin_read it sends headers with that id that ask for n bytes and gets the answer of the slave, right checksum, nothing else of the buffer being touched. A slave sends what lin_write was given, once, when a header has come, and lin_read gives it the id and data of the frame received. lin_setup sets the divider nearest to the bit rate asked for. (False: lin_write of a master ors id and length into those of the frame before, so that another id goes out; a header without data is given again and again by lin_read of a slave; when the fraction of the divider rounds to 16/16 it is cut to 0, as it is at 10417 bit/s with clocks of 8, 16, ... 160 MHz.)", "quantifier": "every id, length, data, earlier frame, schedule of calls and ends of frames, number of bad answers, clock and bit rate", "why_tests_cant": "depends on the frames sent before and on the schedule", "anchors": ["staging/drivers/lin/lin-nxp_linflexd.c: lin_write, lin_read, lin_setup, set_bitrate", "drivers/include/lin.h"]}
{"id": "C115", "title": "Scatter-gather DMA of the MPC57xx: the bytes asked for are moved, once, and the caller is told when", "statement": "dmasg_xfer on an idle channel returns 0 and moves, byte by byte and in order, what the descriptor says (offsets, modulo, different sizes on both sides), each once, whatever is done on the 63 other channels; dmasg_xfer_done returns 0 once all of it has been moved and not before; a second dmasg_xfer does not disturb the first. A channel given to a peripheral does a round for each request, each from where the one before has stopped plus the last adjustments. (False: until the engine picks the channel dmasg_xfer_done returns 0 though nothing has been moved, and a second dmasg_xfer is accepted, the first transfer being lost; sizes of 0, 3, 5, 6, 7 bytes are taken as 1; offsets are cut to 16 bits; a count that is not a multiple of the size is accepted and never moved.)", "quantifier": "every transfer, state of the other channels, schedule of calls, requests, arbitration and steps of the engine", "why_tests_cant": "depends on the schedule of the engine and of the other channels", "anchors": ["staging/drivers/dmasg/dmasg-nxp_edma.c: dmasg_xfer, dmasg_xfer_done, dmasg_nxp_edma_dmasg_setup, setup_tcd, setup_tcd_attr", "drivers/include/dmasg.h"]}
{"id": "C116", "title": "TWI master of the SAM3X: the frame asked for is on the bus, the bytes of the slave are returned", "statement": "A task that calls twi_write until it has been told that all bytes are written puts one frame on the bus, START, address, the bytes, STOP, and the frame ends; one that calls twi_read gets the bytes of the slave, in order, the last one not acknowledged; a slave that is absent or does not take a byte is reported. (False: twi_read of two bytes or more takes one byte more, which the next twi_read returns as its first; a byte not read in time is lost; a byte that is not taken is counted as written and the rest goes out as a frame of its own; an absent slave is not reported; STOP is asked for before the last byte is given, so that it may come first; and, depending on what the controller does with a STOP at rest, a write of one byte never ends or a write after a read of one byte is cut after its first byte.)", "quantifier": "every message, address, schedule of the calls and of the bus, between the accesses to the registers too", "why_tests_cant": "depends on the interleaving of the calls and of the bus", "anchors": ["drivers/twi/twi-sam3x.c: twi_write_as_master, twi_write_as_master_xfer, twi_read_as_master, twi_read_as_master_xfer", "drivers/include/twi.h"]}
{"id": "C117", "title": "TWI master of the C2000: the frame asked for is on the bus, the bytes of the slave are returned", "statement": "A task that calls twi_write until it has been told that all bytes are written puts one frame on the bus, START, address, the bytes, STOP, and the frame ends; one that calls twi_read gets the bytes of the slave, in order, the last one not acknowledged; a slave that is absent is reported to the call that addressed it. (False: a message of more than 16 bytes is reported as written, loses its bytes from the 17th on and holds the bus for ever; an absent slave is reported to the next write, or never; a message written before the START of the previous one is on the wires is reported as written and lost; twi_read waits for no byte once one was ever received: it returns at once what is in the FIFO, then repeats the last word read, so that every answer is given to the read after.)", "quantifier": "every message, address, answer of the slave and, for writes, schedule of the calls and of the bus, within the calls too", "why_tests_cant": "depends on the interleaving of the calls and of the bus", "anchors": ["drivers/twi/twi-ti_f28x.c: reset, check_for_errors, twi_write_as_master_idle, twi_write_as_master_xfer, twi_read_as_master_idle, twi_read_as_master_xfer", "drivers/include/twi.h"]}
{"id": "C118", "title": "TWI master of the SERCOM: the frame asked for is on the bus, the bytes of the slave are returned", "statement": "A task that calls twi_write until it has been told that all bytes are written puts one frame on the bus, START, address, the bytes, STOP, and the frame ends, whatever the schedule; an absent slave is reported and the frame ended; one that calls twi_read gets the bytes of the slave, in order, and the frame ends. (False for reads: none ever ends; they take one byte of the slave and return it again and again, one time less than asked, and hold the bus for ever. False also for a NACK that comes between the reads of STATUS and INTFLAG: the byte is counted as written; and after any NACK, if a STOP doesn't clear RXNACK, every call returns -EAGAIN for ever.)", "quantifier": "every message, address, answer of the slave and schedule of the calls and of the bus, within the calls too", "why_tests_cant": "depends on the interleaving of the calls and of the bus, and 'never' cannot be tested", "anchors": ["drivers/twi/twi-atmel_sercom.c: twi_write_as_master, twi_write_as_master_idle, twi_write_as_master_data, twi_read_as_master, twi_read_as_master_idle, twi_read_as_master_data, twi_send_stop_as_master, twi_stop_as_master", "drivers/include/twi.h"]}
{"id": "C119", "title": "TWI master of the PIC32MX: twi_write puts the frame asked for on the bus, and an absent slave is reported", "statement": "A task that calls twi_write until it has been told that all bytes are written puts one frame on the bus, START, address, the bytes, STOP, and the frame ends, whatever the schedule; a slave that is absent or doesn't take a byte is reported and the frame ended. (False: after a frame that was not acknowledged, a task that calls before the address of its next message was sent is told that a slave that answers is absent; a last byte that is not taken is counted as written; a NACK that comes between the reads of ACKSTAT and TRSTAT is not seen and the byte counted as written.)", "quantifier": "every message, address, answer of the slave and schedule of the calls and of the bus, within the calls too", "why_tests_cant": "depends on the interleaving of the calls and of the bus", "anchors": ["drivers/twi/twi-pic32mx.c: twi_write_as_master, twi_rw_as_master_idle, twi_write_as_master_sla, twi_write_as_master_data, twi_rw_as_master_stop", "drivers/include/twi.h"]}
{"id": "C120", "title": "Hardware random number generator of the STM32H7: every byte comes from a word of the generator, used once", "statement": "rng_read on the hardware generator stores bytes of words that the generator made, in the order it made them, no word being used twice over any sequence of calls; it stores at most n bytes, returns their number, -EAGAIN if there is none, less than n only if no word was left; the set-up gives the generator the fastest clock not over 48 MHz and turns it on or reports that it could not. (False: after a seed error between the reads of the status and of the data, zeros are returned as random bytes.)", "quantifier": "every sequence of calls, size, and behaviour of the generator before, between and within the calls; every clock frequency", "why_tests_cant": "depends on when words are made and errors happen, between any two accesses", "anchors": ["staging/drivers/rng/rng-stm32h7xx_trng.c: rng_stm32h7xx_trng_init, rng_read", "drivers/include/rng.h"]}
{"id": "C121", "title": "CAN of the SAME5x: the frame asked is sent, the frame received is returned once, at the bit rate asked", "statement": "When can_write returns n, one more frame waits to be sent, the one asked, and those that waited are as they were; can_read returns the oldest frame received and not yet read, its identifier and its bytes; exactly the frames accepted by can_accept are received; the bus runs at the bit rate asked. (False: when 32 frames wait can_write replaces one of them, and spoils it even when it fails; an identifier of 29 bits is cut to its 11 upper bits; after a frame without data nothing is ever received again; the filters do nothing, every frame is received; the bit rate is a 16th of the clock whatever is asked.)", "quantifier": "every identifier, length, contents, state of the fifos, sequence of calls and arrivals, clock and bit rate", "why_tests_cant": "the states and the histories of the fifos can't be enumerated, nor the clocks and rates", "anchors": ["staging/drivers/can/can-same5x.c: can_write, can_read, can_accept, set_bitrate, set_dbrp_and_seg", "drivers/include/can.h"]}
{"id": "C122", "title": "Bus matrix, DMA multiplexer, glitch filter, resets: a setting reaches the register asked, and only that", "statement": "A call that configures a master or a slave of the bus matrix of the SAMx7x, the DMA base of a CAN, a channel of the STM32H7 DMAMUX, a channel of the NXP glitch filter, or the reset of a peripheral of the RP2040 puts the value asked in the field of that channel, changes no other field or channel, and refuses channels and values that do not exist; rp2040_unreset returns 0 exactly when the peripheral reports it left reset within the wait. (False: the last master and the last slave of the matrix are refused; SLOT_CYCLE is written one bit too high, so that it is twice the number asked, modulo 512; the registers of the glitch filter are off from channel 2 on.)", "quantifier": "every channel, value, prior contents of the registers, and sequence of what RESET_DONE reads", "why_tests_cant": "the values and the contents of the registers can't be enumerated", "anchors": ["drivers/misc/misc-atsamx7x_matrix.c: atsamx7x_matrix_set_mcfg, atsamx7x_matrix_set_scfg, atsamx7x_matrix_set_can0dmaba, atsamx7x_matrix_set_can1dmaba", "drivers/misc/misc-stm32h7xx_dmamux.c: dmamux_stm32h7xx_init, dmamux_stm32h7xx_set_dmareq_id", "drivers/misc/misc-rp2040_reset.c: rp2040_reset_init, rp2040_reset, rp2040_unreset", "staging/drivers/misc/misc-nxp_igf.c: nxp_igf_init, nxp_igf_setup, get_MCR"]}
