# Formal model of modm in Lean 4 — design

Source under study: `/repo` (modm-io/modm at the pinned commit), read as text only, never built or run.
The claims are listed in `properties.jsonl`, their status in `MANIFEST.json` (both generated by `tools/claims.py`).

## Trusted base

* Lean 4.33.0's kernel and the three standard axioms `propext`, `Classical.choice`, `Quot.sound`.
  No axiom is added; there is no `sorry`, `admit`, `native_decide` or `bv_decide`.
  `AXIOMS.txt` lists the axioms of every theorem of the manifest (`tools/axioms.sh` regenerates it).
* `decide +kernel` is used for concrete examples and counterexamples, and for complete finite tables (all bytes,
  all states of a two bit counter, all inputs of a comparator network); it is checked by the kernel.
* The reading of the C++ source: nothing ties a Lean definition to the C++ text except the citation
  comment on the definition. Every definition in `Verif/Model/` cites file and lines.
* C++ semantics as summarised in "Modelling conventions".

## Layout

* `Verif/Model/*`: the functions of the code. `Verif/Spec/*`: small specifications that do not use the model.
  `Verif/Lemmas/*`: helper proofs. `Verif/Props/*`: the theorems `Cnn_…`, each with an `example` of a concrete non-trivial case
  beside it. A name ending in `_partial` proves less than the claim; `_counterexample` refutes (part of) a claim.
* `seeded/`: mutation tests. `tools/mutate.py` applies each edit of a set in `seeded/sets/` to a scratch copy of the model, rebuilds
  the theorems and appends one line per attempt to `seeded/LOG.jsonl`.

## Modelling conventions

* Undefined behaviour (access outside of an object, use after free, null dereference, double delete, signed overflow,
  division by zero) is a distinct outcome, normally `none`. "Defined" or "memory safe" means that this outcome is not reached.
* Fixed-width arithmetic is `BitVec w`, or `Nat`/`Int` with an explicit reduction at the place where the code truncates.
  Arithmetic on types narrower than `int` is done in `int`, which has 32 bits; `size_t` has 32 bits; `uint_fast8_t` is at least 8 bits wide.
* A loop is structural recursion, or recursion with fuel that is shown to suffice. `none` for lack of fuel in a loop that may not
  end is stated as such (schedulers, ranges).
* Heaps are functions from addresses to cells. A fresh allocation returns any address that is not in use (an argument of the operation,
  so that freed addresses can come back) with any contents. Allocation succeeds, except in the block allocator and AMNB, where
  failure is an input.
* External calls (device, clock, user callback) are inputs: bytes, times, lists of responses.
* Interrupts and concurrent sides are small-step machines with one shared access per step, sequentially consistent.
* `double` in the prescaler search is any rounding that is monotone, exact on integers up to 2^53 and has relative error at most 2^-53;
  Lagrange interpolation and the PID gains use exact arithmetic. Elsewhere floating point is left out.
* Not modelled anywhere: compiler reordering of non-volatile accesses, weak memory, interrupt latency, context switching in
  assembler, inline assembler variants, hardware registers, performance, exceptions of element types (element
  operations succeed).

## What is modelled, property by property

| Claims | Code | Model | Proof idea |
|---|---|---|---|
| C01, C46 | atomic queue, bounded queue and stack | ring indices with 8/16 bit types, buffer as list | refinement of a bounded FIFO/LIFO by induction over calls |
| C02 | atomic queue, two sides | small-step machine, a program counter per side | invariant over all schedules |
| C03–C05 | BoundedDeque | head, tail, size, buffer | refinement of a list; iterators as index pairs |
| C06, C07 | linked lists | heap of nodes | representation predicate, refinement |
| C08 | DynamicArray | cells with lifetimes | refinement, no leak |
| C09 | SmartPointer | heap of counted buffers | count = number of handles |
| C10–C14 | Timeout, PeriodicTimer | BitVec clock, absolute time as `Nat` | modular arithmetic, induction over polls |
| C15, C59 | priority scheduler | task list, ready list, interrupt nesting as a stack machine | invariant per tick |
| C16 | protothread semaphore | 16 bit counter | counting over histories |
| C17 | fiber scheduler | circular list as `next` map | refinement of a rotating list |
| C18–C20 | bit operations, endianness | BitVec | per bit |
| C21–C23 | CRC-8/16/32 | BitVec steps | polynomial remainder over GF(2) with Mathlib polynomials; linearity |
| C24, C25, C47, C48 | Saturated | `Int` with the types' ranges | clamping specification |
| C26 | Median | comparator networks | 0-1 principle and complete Boolean tables |
| C27–C31 | moving average, FIR, PID, ramp, debounce | state machines | closed form over the history of samples |
| C32–C35, C49 | range, prescalers, interpolation, Lagrange | `Int`, `Rat`, rounding functions | direct |
| C36–C39, C50–C52 | SAB | byte stream machines for interface, slave, master | round trip, invariants over all streams |
| C40, C41, C53, C54 | SAB2 | byte stream machine | round trip, invariants |
| C42–C44, C55, C56 | RPR | node machine, ring of nodes | round trip, induction over the ring |
| C45, C57, C58 | Lawicel, CAN messages | character lists, records | round trip, tables |
| C60, C61 | block allocator | array of words | block structure invariant |
| C62–C65 | XPCC CAN connector | identifiers as BitVec 29, reassembly lists, sender/receiver pair | round trip, conservation of packets |
| C66–C69 | AMNB | message object with union storage, node machine | round trip, CRC facts, invariants |
| C70–C73 | encoder drivers | pins, counters | difference invariant; table over all phases |
| C74, C75 | UnixTime, Date | `Nat` seconds | loops against cumulative day counts of the Gregorian calendar |
| C76, C77 | register flags and fields | BitVec of any width | per bit |
| C78, C79 | RGB565, HSV | `Nat` | packing as arithmetic; the hexcone formula |
| C80–C82 | button group | BitVec slices | two bit counter per button; induction over histories |
| C83–C87 | 1-Wire bit bang master | search state with the byte buffer; bus as wired and of devices that follow the protocol | invariant of the bit loop; the search order is lexicographic |
| C88–C95 | graphic display: lines, shapes, images, monochrome buffers, text | lists of pixel calls; buffer as a function; 16 bit conversions explicit | closed form of Bresenham's line; quadratic invariants of the circles; bits per pixel |
| C96–C101 | resumable functions, protothreads | the macros as a translation to a small C++ with case labels; state arrays per object; execution with bounds on rounds and call depth | refinement to a fiber semantics (the rest of the body), induction over bodies and call chains |
| C102–C106 | block devices (`driver/storage/block_device_*`) | heap, file, mirror, serial flash and stack of dies as state transformers; the SPI bus is a function from frames to answers; resumable functions as sequential programs (C96) | refinement to an array of bytes, against a chip model from the data sheet (write enable latch, protection, page wrap, arbitrary busy times); simulation of one die within the stack |
| C107, C111, C112 | bit bang SPI master, SPI lock | operations on arbitrary wires; the loops over bits and bytes | device that samples and shifts at the edges of its mode; lock with owner and depth |
| C108–C111, C113, C114 | bit bang I2C master, I2C transaction objects, `resetDevices` | operations on arbitrary wires; transaction object as a record of its virtual functions; memory as a function | bus with devices as in the I2C specification (wired and, START/STOP detection, acknowledge, clock stretching), refinement to a transfer at the level of bytes; a clock that watches the wires |
| C115–C121 | plane geometry (`math/geometry/{vector2,line_segment_2d,polygon_2d,ray_2d,line_2d,circle_2d}`) for `int16_t` | `Int` with wrapping 16 bit stores and undefined 32 bit overflow; rounding to `float` as an explicit function | figures as sets of points of the real plane (Mathlib's `convexHull` for polygons); sign lemmas, number of roots of a quadratic |
| C122–C129 | XPCC dispatcher and communicator (`communication/xpcc/{dispatcher,communicator}`) | list of entries with the place of the loop, arbitrary components as functions of a state, log of what is observed; the loop has a bound on its rounds (C128: a bound always exists if handlers are ranked) | counts and positions in the log (the spec does not mention entries); a general invariant of all reachable states; time line of one call among arbitrary traffic; multiset order for termination |
| C130–C136 | matrices, LU decomposition, vectors, quaternions (`math/{matrix,lu_decomposition}`, `math/geometry/{vector,vector3,quaternion}`) | block of memory with arbitrary former contents, loops that store; exact arithmetic in an arbitrary ring, field or ordered field, the real numbers for angles and square roots; a reference argument is a function of the object | Mathlib's `Matrix`, `det`, `Quaternion`, `crossProduct`, lexicographic order; closed forms of the recursive steps, Schur complements; Rodrigues' formula for rotations |
| C137–C142 | UART of the STM32 with a transmit queue, with or without receive queue, ICR and shared interrupt (`platform/uart/stm32`) | small steps: every access to a register or to an index of a queue is a step of the program or of the handler; the handler runs at any place of the program and is not interrupted by it; data, shift and receive registers; events | bytes written, accepted, received, arrived as functions of the events; invariant of both queues for every interleaving; the drivers without a transmit queue and parity, framing and noise errors are not modelled |
| C143, C144 | Acceptance filters of the STM32 bxCAN (`can_filter.hpp.in`, `can_filter.cpp.in`) | the registers as bit vectors, every function as written | which frames pass a bank with given registers, from the reference manual |
| C145–C147 | Sending with the STM32 bxCAN, with or without transmit queue (`platform/can/stm32/can.cpp.in`: `sendMessage`, `isReadyToSend`, `sendMailbox`, the transmit interrupt) | small steps of program, handler and hardware; three mailboxes, in the order requested; a mailbox that is pending cannot be written; header and data are written in two steps; latched interrupt; `CODE` an arbitrary function of the mailboxes in use | messages offered and taken as functions of the events, frames as pairs of the messages that gave header and data; invariant of the queue for every interleaving, of the whole flow without a queue or when no transmission ends during a call |
| C148–C150 | Receiving with the STM32 bxCAN, with or without receive queue (`platform/can/stm32/can.cpp.in`: `getMessage`, `isMessageAvailable`, `readMailbox`, the receive interrupts) | small steps of program, handlers and hardware; two FIFOs of three messages, locked or overwriting on overrun; messages are copied in two steps | messages arrived, delivered and lost as functions of the events; one flow for each FIFO: delivered, queue, handler, FIFO is a sublist of the messages received, with an account of the losses |
| C151–C155 | CAN messages in the registers and memory of five controllers: bxCAN (`platform/can/stm32/can.cpp.in`: `sendMailbox`, `readMailbox`), FDCAN (`platform/can/stm32-fdcan/can.cpp.in`, `message_ram.hpp`), SocketCAN (`platform/can/socketcan/socketcan.cpp`), MCP2515 (`driver/can/mcp2515_impl.hpp`), C_CAN (`platform/can/lpc/c_can.cpp.in`) | registers and memory words as bit vectors, functions from message to registers and back; `none` is an access outside an array | the frame in the registers, read by bit positions as in the data sheet, compared with the frame of the message |
| C156 | The receive and transmit buffers of the MCP2515 (`driver/can/mcp2515_impl.hpp`: `getMessage`, `sendMessage`, `isReadyToSend`) | every SPI command is one step; frames arrive and transmissions end between any two; rollover as a parameter | multisets of the messages taken, sent, received, lost |
| C157, C158 | Sending with the STM32 FDCAN, with or without transmit queue (`platform/can/stm32-fdcan/can.cpp.in`: `sendMessage`, `isReadyToSend`, `sendMsg`, interrupt line 0; `can_shared_irqs.cpp.in`) | small steps of program, handler and hardware; three buffers in queue mode with any free put index; the handler is not entered after the write clearing `ILE`, except with shared interrupts | frames on the bus as pairs of the message of the header and that of the data; multisets and order |
| C159, C160 | Receiving with the STM32 FDCAN with receive queue (`platform/can/stm32-fdcan/can.cpp.in`: `getMessage`, `isMessageAvailable`, `readMsg`, `acknowledgeRxFifoRead`, interrupt line 1); without receive queue the file does not compile | small steps of program, handler and hardware; two FIFOs of three elements, header and data read separately; locked or overwriting; the fill level after acknowledging an overwritten element as a parameter | lists of the messages put into, delivered from and still in a FIFO |
| C161, C162, C163 | The clocks `milli_clock`/`micro_clock` (`modm::Clock`, `modm::PreciseClock`) with the SysTick (`platform/clock/systick/systick_timer.hpp.in`, `.cpp.in`: `initialize`, the handler, `now`) and with timer 0 of AVR (`platform/clock/avr/clock.cpp.in`, `module.lb`) | small steps of the timer, the handler and `now`; the 32 bit variable read at once or in four bytes; setup with the prescaler search in doubles (any rounding with the properties of C33); factors in 32 bits as stored | FreeRTOS sets the SysTick up itself (not in the repository): only the constants computed by modm are modelled. The interrupt of the SysTick becomes pending at the reload, not one clock before. `assertBaudrateInTolerance` is modelled as equality of the frequencies as integers. Other users of the timers not modelled |
| C164, C165 | Bit timings of CAN: `CanBitTiming` (`platform/can/common/can_bit_timings.hpp`) with the registers of bxCAN (`BTR`), FDCAN and M_CAN (`NBTP`, `DBTP`); `CanBitTimingMcp2515` (`driver/can/mcp2515_bit_timings.hpp`) with `CNF1` to `CNF3` | floats as rationals with a rounding of which only monotony, exact integers and the relative error are known; the loop as a fold; registers as bit vectors, decoded as in the manuals | Types wider than needed where no overflow is possible for clocks below 2^31; `assertBitrateInTolerance` compares the computed float with the tolerance. The bit rates of the LPC C_CAN (a table) not modelled |
| C166–C169 | Busy-waiting delays: `platform/core/cortex/delay*.in`, `platform/core/avr/delay_impl.hpp.in` with the values of the modules (`us_shift`, `shift`, cycles of a pass), the overloads of `modm::delay` | floats and doubles as rationals with an abstract rounding; the cycle counter as a function of time, looked at at arbitrary times; the loops of `subs`/`bpl` as an inductive relation on bit vectors; calls of `delay_us` as a list | Cycles of instructions are parameters (the tables of the modules and the comments give them). Debug builds only add an assertion. `math.log2` and `int(4e9 / f)` of the Python modules as exact integer functions. Durations with integer counts only. `delay` of the hosted targets (`usleep`, `Sleep`) and of the LPC not modelled |
| C170–C173 | Streams and devices (`io/iostream.hpp.in`, `iostream.cpp`, `iostream_printf.cpp.in`, `iodevice.hpp`, `iodevice_wrapper.hpp`) | stream as bytes put out, mode and position of the printf gadget; `operator <<` item by item; a device as the list of its answers to attempts to write | loops over bytes unrolled and read back by an independent parser; digits by Mathlib's `Nat.digits`; counting of the gadget's position. `print_integer` and the counting of the gadget are those of the printf library, which is a submodule and not in the repository. Floating point, `printf` and colours not modelled |
| C174–C176 | Acceptance filters of the STM32 FDCAN (`platform/can/stm32-fdcan/message_ram.hpp`, `can.cpp.in`: filter functions, `RXGFC`) and of the MCP2515 (`driver/can/mcp2515.hpp` macros, `mcp2515_impl.hpp`: `setFilter`) | message RAM as words at addresses; bytes of SPI commands; the controllers as their manuals describe them | refinement of a table of filters over all sequences of calls; bits one by one. `EnterInitMode` and its timeout not modelled |
| C177–C178 | I2cEeprom and At24Mac402: the transactions of write and read, and what devices as in the data sheets make of them | Model/Eeprom.lean, Spec/Eeprom.lean | that calls are repeated while the bus is busy, the time of the internal write cycle (isBusy, available), errors of the bus |
| C179–C182 | ui/animation: FastRamp with integers, Animation, KeyFrameAnimation, Pulse, Indicator, Strobe | Model/Animation.lean, Spec/Animation.lean | ramps with floats, setKeyFrames and setMode in the middle of an animation, that the clock may tick between two animators, setFadeTimes of Strobe |
| C183–C184 | utils/inplace_any.hpp, alignment from aligned_storage.hpp | Model/InplaceAny.lean, Spec/InplaceAny.lean, Lemmas/InplaceAny.lean | references from any_cast that are kept, types whose functions share an address |
| C185 | utils/inplace_function.hpp | Model/InplaceFunction.lean, Spec/InplaceFunction.lean, Lemmas/InplaceFunction.lean | functions that change their own container while they are called, what follows the assertion of an empty call |
| C186–C187 | driver/adc/adc_sampler | Model/AdcSampler.lean, Spec/AdcSampler.lean | flags of the converter, conversions that are started while one is running |
| C188–C189 | ui/menu/view_stack, gui/view_stack | Model/ViewStack.lean, Spec/ViewStack.lean | views that delete themselves, drawings by `update`, gui widgets and events |
| C190–C192 | ui/menu: scrollable_text, standard_menu, choice_menu | Model/Menu.lean, Spec/Menu.lean | pixels, timers of `hasChanged`, titles, callbacks (`reinterpret_cast` of member pointers) |
| C193–C198 | driver/gpio: mcp23x17, mcp23_transport, pca9535, pca8574; architecture/interface/gpio_expander | Model/GpioExpander.lean, Spec/GpioExpander.lean | bus transactions as bytes on the wire (one transfer is one step, done or not), interrupts of the chips, IOCON.BANK, hardware addresses, `Mcp23x17::writePort` (does not compile: `Flags` has no `clear`), `Mcp23x17::readAllInput` |
| C199–C205 | platform/gpio: stm32 and at90_tiny_mega: set, static, port, software_port, base; common: inverted (isInverted), port_shim | Model/GpioPins.lean, Spec/GpioPins.lean | the template's loops over ports (ports side by side), lock(), ASCR, AFR, clocks of the ports, GpioOpenDrain, GpioUnused, connectors |
| C206–C213 | platform/timer/stm32: basic, general_purpose, advanced (setPeriod, channels, compare values, dead time, idle states, flags) | Model/Stm32Timer.lean, Spec/Stm32Timer.lean | setMode, master and slave modes, encoder, interrupt vectors, DMA requests, break inputs, shadow registers, durations in floating point, channels that a timer does not have |
| C214–C219 | driver/rtc: mcp7941x, ds1302 | Model/Rtc.lean, Spec/Rtc.lean | getUniqueId, interrupted transactions, burst writes, RAM and trickle charger of the DS1302, ticks during a call |
| C220–C222 | platform/i2c/at90_tiny_mega; the module TWI | Model/I2cAvr.lean, Spec/I2cMaster.lean, Spec/I2c.lean, Lemmas/I2cMaster.lean | the time a STOP condition takes (a `TWCR` written before its end, as after a NACK, does not harm it), configuration handlers, bit rates |
| C223–C226 | platform/i2c/stm32 (F1, F2, F4, L1); the peripheral I2C | Model/I2cStm32.lean, Spec/I2cMaster.lean, Spec/I2c.lean, Lemmas/I2cMaster.lean | bus errors, lost arbitration, other masters, DMA, bit rates; the bus moves on by whole bytes, interrupts take no time but in the loops that wait for STOP; what the peripheral does after a byte was not acknowledged too early |
| C227–C230 | platform/i2c/stm32-extended (F0, F3, F7, G0, G4, H7, L0, L4); the peripheral I2C v2 | Model/I2cStm32Ext.lean, Spec/I2cMaster.lean, Spec/I2c.lean, Lemmas/I2cMaster.lean | bus errors, lost arbitration, other masters, DMA, bit rates; the bus moves on by whole bytes (received ones by eight bits and the acknowledge); one step of the bus at most while an interrupt is being served; interrupts of other masters (shared_irq); `reading.length` has 32 bits |
| C231–C235 | platform/flash/stm32 (F1, F4, G0, G4); the flash controller | Model/Flash.lean, Spec/Flash.lean | caches, option bytes, STM32F1 with two banks of registers, STM32F413 (16 sectors in one bank); an operation with an error has no effect, writes to CR of a busy or locked controller are ignored |
| C236–C240 | platform/fault/crashcatcher/fault_storage, platform/core/cortex/heap_table, platform/heap/cortex/heap_tlsf | Model/HeapTable.lean, Model/HeapTlsf.lean | CrashCatcher itself, the TLSF library (only its interface), locks of malloc, realloc; addresses are natural numbers |
| C241–C243 | platform/core/cortex/atomic_lock_impl, ext/gcc/atomics_c11_cortex | Model/AtomicLock.lean | single accesses to PRIMASK, BASEPRI and the words of one object, arbitrary nested interrupts; NMI, HardFault, priority grouping left out |
| C244–C245 | ext/gcc/cxxabi, platform/core/cortex/assert, architecture/interface/assert | Model/StaticGuard.lean | single accesses to the guard, the test that the compiler adds; exceptions and threads left out; assertions without texts |
| C246–C249 | platform/core/rp/multicore, atomic_lock_impl with multicore | Model/Multicore.lean | sequentially consistent memory, one spin lock of the SIO; priorities, the handshake of runCore1 and the mailbox left out; addresses are natural numbers |
| C250–C254 | driver/pwm: tlc594x, ws2812b, sk6812w, apa102, max6966 | Model/LedDrivers.lean | buffers and the order of bits on the wire; chain of MAX6966 as shift registers; SPI transfers, latch timing left out; at most 43688 channels (index is uint16_t) |
| C255–C262 | driver/temperature: lm75, tmp102, tmp175, ds1631, ds18b20, tmp12x, max31855, max31865, mcp990x, stts22h | Model/TempSensors.lean | getters, limit registers, rates, turns of the threads, configuration writes; float as rational number (exact where only powers of two occur); the I2C and SPI transfers themselves (other models), getTemperaturePrecise, ltc2984 left out |
| C263–C268 | driver/pressure: ms5611, ms5837, bmp085 (fixed point), ams5915, hclax | Model/Barometer.lean | compensation with int32/int64 overflow as undefined behaviour, check of the calibration words, flags of computed values, getters; the transfers themselves, bme280, the variants in double, scp1000, amsys5915 temperature left out |
| C269 – C274 | Drivers of analogue converters | `Model/AdcDrivers` | `Props/AdcDrivers` |
| C275 | malloc and free on AVR | `Model/AvrHeap` | `Spec/AvrHeap`, `Props/AvrHeap` |
| C276 – C278 | startup of Cortex-M, `_sbrk_r`, `operator new` | `Model/Startup` | `Props/Startup` |
| C279 – C281 | ext/tlsf/tlsf.c.in | Model/Tlsf.lean, Spec/Tlsf.lean | one pool; words of four bytes instead of bytes; memalign, pool walking and checking, removal of pools, locks of the callers |
| C282 – C285 | ui/display/character_display.cpp, driver/display/hd44780*, st7036* | Model/CharDisplay.lean, Spec/CharDisplay.lean | controllers after their data sheets (shift of the display left out); time passes only where the code waits; readRAM, readAddress; contents of the initialisation of the ST7036 |
| C286 – C288 | platform/spi/stm32/spi_master.cpp.in, spi_master_dma_impl.hpp.in; platform/dma/stm32/dma.hpp.in, dma_hal.hpp.in as far as used | Model/SpiStm32.lean, Spec/SpiStm32.lean | peripheral and DMA after the reference manuals, progress as arbitrary events; Busy exactly while a byte is in the transmitter; both channels on one controller; initialisation and prescalers left out |
| C289 – C291 | driver/storage/at45db0x1d_impl.hpp, at45db0x1d.hpp | Model/Dataflash.lean, Spec/Dataflash.lean | device after its data sheet, whole transactions; busy time arbitrary, effect of an operation at once; sector protection, power down and opcodes the driver does not name left out |
| C292, C293 | platform/uart/at90_tiny_mega/uart_tx.cpp.in, uart_rx.cpp.in | Model/AvrUart.lean, Spec/AvrUart.lean | interleaving of main program, handlers, hardware; calls of the queues are one step (see C02); receiver of three frames; parity, connect and initialize left out |
| C294 – C296 | driver/radio/nrf24 (phy, config, data) | Model/Nrf24.lean, Spec/Nrf24.lean | device after its data sheet with whole SPI transactions; update in two steps with events of the air between; dynamic payloads, time stamps, mode switching times left out |
| C297–C302 | Model/Panel.lean | Lemmas/Panel.lean | Props/Panel.lean |
| C303–C305 | Model/Rtt.lean | Lemmas/Rtt.lean | Props/Rtt.lean |
| C306–C309 | Model/Touch.lean | – | Props/Touch.lean |
| C310–C313 | Model/BusDevices.lean | – | Props/BusDevices.lean |
| C314–C320 | Model/Gui.lean | – | Props/Gui.lean |
| C321–C323 | Model/I2cTiming.lean | – | Props/I2cTiming.lean |
| C324–C327 | Model/Location.lean | – | Props/Location.lean |
| C328–C330 | Model/CycleCounter.lean | – | Props/CycleCounter.lean |
| C331–C333 | Model/ThreadSemaphore.lean | – | Props/ThreadSemaphore.lean |
| C334–C336 | Model/Exti.lean | – | Props/Exti.lean |
| C337–C339 | Model/Dma.lean | – | Props/Dma.lean |
| C340–C342 | Model/RpInt.lean | – | Props/RpInt.lean |
| C343–C345 | Model/SCurve.lean | – | Props/SCurve.lean |
| C346–C348 | Model/Ixm42.lean | – | Props/Ixm42.lean |
| C349–C350 | Model/Drv832x.lean | – | Props/Drv832x.lean |
| C351–C352 | Model/Ft245.lean | – | Props/Ft245.lean |
| C353 | Model/Spartan3.lean | – | Props/Spartan3.lean |
| C354–C355 | Model/DynamicPostman.lean | – | Props/DynamicPostman.lean |
| C356–C357 | Model/GpioSampler.lean | – | Props/GpioSampler.lean |
| C358–C359 | Model/SpiRam.lean | – | Props/SpiRam.lean |
| C360–C361 | Model/Itm.lean | – | Props/Itm.lean |
| C362–C363 | Model/Is31fl3733.lean | – | Props/Is31fl3733.lean |
| C364–C365 | Model/Lp503x.lean | – | Props/Lp503x.lean |
| C366–C367 | Model/Lis3dsh.lean | – | Props/Lis3dsh.lean |
| C368–C370 | Model/Ltc2984.lean | – | Props/Ltc2984.lean |
| C371–C372 | Model/Spartan6.lean | – | Props/Spartan6.lean |
| C373 | Model/Cat24aa.lean | – | Props/Cat24aa.lean |
| C374 | Model/Mcp23s08.lean | – | Props/Mcp23s08.lean |
| C375–C376 | Model/Tcs3414.lean | – | Props/Tcs3414.lean |
| C377–C378 | Model/Tcs3472.lean | – | Props/Tcs3472.lean |
| C379–C380 | Model/Hmc6343.lean | – | Props/Hmc6343.lean |






Left out of the modelled files: the rounding of `float` and `double` in matrices, quaternions and vectors, `Matrix::operator /`, angles between vectors; postmen and backends of XPCC other than the CAN connector (C62–C65); geometry results computed with `float` (intersection points, angles, closest points, segment with circle, polygon with circle), other element types; I2C configuration handler and `connect`; `BdSpiFlash::readId`, acquiring the SPI bus;  `PT_SPAWN`, `PT_WAIT_THREAD`, `for`, `switch` and local variables in resumable functions; `drawEllipse` and the virtual display; the floating point branch of the moving average; `float` conversions to HSV; stream output operators;
context switching; hardware access; the AVR assembler variants.

## Where the code does not do what the claim says

Each point is proved as a theorem (named in `MANIFEST.json`).

* C05: iterating an empty deque visits one stale slot; `--end()` is wrong.
* C08: self assignment, appending an own element to a full array, and huge reserves are undefined.
* C09: the 8 bit counter wraps with 256 handles; self assignment of the only handle frees the buffer first.
* C12–C14: `remaining()` is wrong across a wrap of the clock; the periodic timer's count is one too small at exact multiples; the interval check
  looks at the unconverted number.
* C15, C59: a task with priority 0 never runs and hangs a later tick; a task due twice hangs; the end of a preempting task resets the priority,
  so that a lower task can preempt. (`Unlock()` is also a temporary that ends at once.)
* C16: the counter wraps above 65535 permits.
* C21: the portable CRC-8 shifts before testing the top bit, so bit 7 is lost; not CRC-8-CCITT. C67 inherits this: bit 7 of an AMNB header byte is
  unprotected, so that a broadcast can turn into an error message.
* C24, C25, C47, C48: negation of the minimum, products below the minimum, and pairs with `uint64_t`.
* C29, C30: `int16_t` PID with a scale is never negative; ramps over more than half of a signed range run away.
* C32, C34, C35: ranges near the type limit never end; prescalers skip candidates and overflow; interpolation casts and products overflow.
* C38, C40, C41, C52–C54: SAB replaces a message before it is taken and the master accepts stale answers; SAB2 sizes wrap for 252 to 254 byte buffers, over-long frames
  are reported.
* C42–C44: RPR hands over the two CRC bytes with each payload, its 8 bit length wraps, and a message is popped twice.
* C45: Lawicel strings with an unknown first letter are read as `t`; lengths above 8 are rejected.
* C57: a data length code above 15 reads outside of the table.
* C60: requests close to SIZE_MAX and heaps above 32767 blocks break the allocator.
* C64, C65: XPCC over CAN overflows its buffer when two fragments announce different sizes; packets above 48 bytes are never delivered; direct sends
  overtake; the message counter is shared by all connectors.
* C66, C68: AMNB payloads from 256 bytes on are cut; stale payload is used as a pointer (write and free); unwanted large messages are read through null.
* C71, C72: the encoder output drives signal A the wrong way backwards; a 32 bit delta is wrong at the wrap.
* C75: the day of the year is stored in 8 bits.
* C77: `Configuration::set` does not mask its value.
* C78, C79: colours with 16 bit components.
* C82: the repeat counter of a button group is shared by all its buttons.
* C84–C86: a 1-Wire family search goes on with other families; skipping the last family can repeat it; `verifyDevice` ignores the given ROM
  code when it searches.
* C88–C95: negative coordinates write before the display buffer; `clearPixel(Point)` sets; long lines overflow; a rectangle without width is drawn;
  vertical lines on displays of more than 128 rows go to the bottom; images across the bottom overflow the buffer; filled rectangles with a negative start
  vanish; filled circles lack the lowest row; rounded rectangles are one pixel too large; `getStringWidth` reads outside of the font
* C96–C98, C101: the arguments of `RF_CALL` are evaluated anew at every resumption; functions of one nested object in two files share state numbers
  and disturb each other; without `check_nesting_depth` a deep call writes behind the state array, and `isResumableRunning` in the innermost
  level always reads behind it; the result of `RF_END` is not initialised.
* C102–C106: block devices compute `address + size` in 32 bits, so that requests whose sum overflows are not refused (`BdHeap`: access outside of the memory;
  `BdFile`: the file grows and can not be opened any more; `BdSpiFlash`: another page is programmed); `BdMirror` returns `resultA && resultA` and does not look at
  the second device; `BdSpiFlash::erase` of the whole chip sends no write enable, the chip ignores it and `write` of the whole chip combines old and new bytes;
  unaligned program requests wrap around within their page; `BdSpiStackFlash::isBusy` has `--currentDie` as an argument of `RF_CALL`, which is evaluated again at
  every resumption, so that dies are left out.
* C107, C111, C112: `BitBangSpiMaster::initialize` pulls SCK low also when the clock idles high; the delays of both bit bang masters overflow for slow clocks;
  the nesting count of the SPI lock overflows at 256.
* C108–C110, C113, C114: `BitBangI2cMaster` gives up when the clock is stretched for 500 quarters, reports a general call without acknowledge as a data error, reports a failed
  STOP only in the error state, leaves SDA low when SCL is stuck, and changes the state of a busy transaction when `start` refuses it; a second start of an
  `I2cWriteReadTransaction` only reads; `I2cReadTransaction` with a null buffer is dereferenced; nine clocks do not free a device that was being written to;
  STOP and repeated START leave no time for SCL being low.
* C116–C121: `ccw` with two equal points is 1 for every third point; a segment of one point is not found on another segment; `getIntersections` of segments
  rounds to `float` before comparing; `isInside` fails for a clockwise polygon with a vertex given twice in a row; `Ray2D::intersects` leaves out the ends of
  the segment, so that a ray through two corners of a polygon does not intersect it, and overflows for coordinates of a few hundred, as does the intersection
  of a line with a circle; circles touching from the inside give the point twice; lengths, distances, `*` and `^` are cut to 16 bits.
* C123, C125–C127: `Dispatcher` gives the responses to two calls of the same local action to the wrong callbacks; never checks `responseTimeout`; takes every
  acknowledge with the same components and number for that of the first such entry, whatever its kind and whether it has been sent, so that calls and
  responses are lost; drops events when a packet claims to come from component 0.
* C130, C131, C133, C134: `Matrix` counts its elements with 8 bits; `addRow` and `addColumn` read outside of the matrix, always; `LUDecomposition` never
  reports that a matrix is singular, and without pivoting that a pivot is zero.
* C135, C136: `Quaternion::inverse` and `unitInverse` change their object; the matrices of a quaternion are the transposes of the rotation matrices;
  `Vector<T, N>::operator *=` subtracts and unary `-` changes its operand; `/=` and, for vectors, `*=` with a component of the object itself are wrong.
* C138–C141: the STM32 UART's `isWriteFinished` and `flushWriteBuffer` do not wait for the shift register; `writeBlocking` overtakes the queue, and a byte is
  lost when the handler runs between its two accesses; `discardTransmitBuffer` does not stop the handler, which is entered for a received byte and sends
  too; on devices without `ICR` the handler reads the data register a second time and loses a byte; without a receive queue `read` stores a byte for the length 0.
* C143: `StandardFilterMask` does not contain the IDE bit, so that a filter for standard messages lets extended ones with the same upper bits pass; `ExtendedIdentifierShort`
  and `ExtendedFilterMaskShort` have `& 0x007f` instead of `& 0x0007` and mix bits 19 to 21 of the identifier into the RTR and the lower bits of the standard part.
* C145: the comment in `sendMessage` of the STM32 bxCAN says that a free mailbox means an empty queue. It does not: between the end of a transmission and the
  handler the queue can hold messages. Then a later message overtakes them; or the handler, finding its flag cleared by the new request, writes to mailbox 0 while it
  is pending and loses the message; or the handler takes the mailbox between test and use, and the message is lost though `sendMessage` returned `true`,
  or a frame has the identifier of one message and the data of another, or is sent twice. If the transmissions end between the test and the
  access to the queue, the message waits until the next call.
* C148–C150: on overrun the receive handler of the bxCAN writes `FOVR | RFOM`, which releases the oldest message unread; an overrun therefore costs two messages. Without
  a receive queue it does this while `getMessage` reads the mailbox: identifier and data come from different messages and the second message is released unread, or
  a message announced by `isMessageAvailable` is gone.
* C151–C155: the length code of a classic frame may be 9 to 15 and then means 8 bytes; bxCAN and FDCAN report an FD frame of 12 to 64 bytes, the MCP2515 and the C_CAN driver leave their
  buffers. The bxCAN driver sends FD messages as classic frames with the first 8 bytes. The FDCAN driver does not read the FD flags: FD frames of up to 8 bytes are reported as classic frames,
  bit rate switching is never reported, and the handler uses one message object for all frames, so a classic frame after an FD frame is reported as FD frame. SocketCAN leaves the flags in the
  identifier of every extended or remote frame, and writes outside its frame for messages of more than 8 bytes. `getMessage` of the MCP2515 does not set the length code.
* C156: the MCP2515 does not keep the order. A frame in the first receive buffer is returned before an older one in the second; of several pending messages the last one is sent first.
  Without `setFilter` the second receive buffer stays empty and frames are lost.
* C157, C158: the FDCAN in queue mode sends the lowest identifier first and equal identifiers by buffer number, and `sendMessage` uses a free buffer although older messages are in the queue: messages with the
  same identifier overtake each other. With shared interrupts (`can_shared_irqs.cpp.in`) clearing `ILE` does not keep the handler out of `sendMessage`: a frame with the header of one and the data of
  another message, and one message lost. Without queue `isReadyToSend` returns the opposite.
* C159, C160: with `overwriteOnOverrun`, the default, a message arriving for a full FIFO while the handler reads the oldest element gives a message with the header of one and the data of another. A message arriving
  after the loops of the handler and before it clears both flags is acknowledged unread and stays in the FIFO until another one comes. Without receive queue the driver does not compile
  (`releaseRxFifo0Message` is not declared).
* C161: a call of `now` from an interrupt, or another thread, between the accesses of a call clears `interrupt`, so that this call misses that the handler ran: it returns a time up to a whole period wrong (a millisecond on
  AVR, a quarter of a second on a Cortex-M with four interrupts per second), and the next one goes back. With interrupts disabled across a reload the clock goes back by a period.
* C162: with the reference clock of the SysTick at exactly `ref` MHz (8 MHz: the internal oscillator of F1 and F3) `us_per_Ncycles` is 2^32 and is stored as zero: `PreciseClock` stands still between interrupts, that is for 250 ms.
  The option of FreeRTOS accepts tick frequencies with `1000 % freq == 1` (9, 27, 37, 111, 333, 999), with which the precise clock goes back at every tick.
* C163: `OCR0A` is `overflow`, not one less, so that both clocks are slow on every AVR, by one clock of the timer per millisecond: 0.4 % at 16 MHz, 0.8 % at 8 MHz (29 s per hour).
* C164: `CanBitTiming::getPrescaler` returns `uint8_t`, so that the bxCAN, whose prescaler has ten bits, gets the wrong prescaler above 255 without an error: 42 MHz and 5 kbit/s give 13.9 kbit/s. (The FDCAN uses `getBitTimings`, which is right.)
* C165: for 20 MHz the MCP2515 timings count the jump width (3) as the synchronisation segment (always 1): all bit rates but 1 Mbit/s are 11 % too fast; the unit test has these values. Odd prescalers compile and are rounded down:
  200 kbit/s at 8 or 16 MHz become 250 kbit/s. At 8 MHz 1 Mbit/s compiles with a second phase segment of one quantum, less than the chip allows.
* C166: `delay_us` waits too short where the frequency is not a whole number of MHz (an STM32L0 after reset: 1.5 ms in a second), and not at all where the frequency is so low for the device that `delay_fcpu_MHz` is rounded to zero (an STM32H7 at 31 kHz).
  The promise of a second holds by luck: `us_shift` bounds the frequency by a power of two, with which the rounded product may exceed 32 bits; no device is that close to a power of two.
* C167: `modm::delay` of units finer than a millisecond other than nano- and microseconds (tenths of milliseconds, picoseconds) is cast to milliseconds and may be no delay at all; the count is cut to 32 bits, so that a negative one waits 49 days.
* C168: `delay_ns` rounds the nanoseconds of a pass to whole ones and waits 2 % too short at 170 MHz on an STM32G4.
* C169: `delay_us` of AVRs with 6 MHz and less takes off the MHz in each pass of its loop, where it should take off the time of a pass: at 6 MHz it is too short by a factor of 36 over the cycles of a pass, at 1 MHz too long by those cycles, and
  below 1 MHz it takes off nothing and never returns. `delay_ns` of a number that is not constant always waits shorter than asked, by up to a half.
* C170: `operator <<` of a function pointer writes the address of its own parameter (`&pointer`), a place on the stack.
* C171: `writeInteger` of the least `int32_t` or `int64_t` (on AVRs with printf also `int16_t`) negates it, which is undefined. `output_gadget.pos` is never reset: as the printf library counts, a stream that has written 2^31 - 1 digits of decimal numbers
  (two days at 115200 baud) writes none until `pos` wraps.
* C173: `get(char&)` returns `eof` = `char(-1)` for the byte 255.
* C174: `Fdcan::initialize` switches on all filters but does not clear them, and the message RAM survives a reset: filters of a former program (or noise after power-on) stay in force until `clearStandardFilters` and `clearExtendedFilters`.
* C176: `Mcp2515::setFilter` always ends in normal mode: a controller set to listen only starts to acknowledge. `MCP2515_FILTER` and `MCP2515_MASK` do not bracket their argument: `MCP2515_FILTER(0x400 | 0x23)` is a filter for 0x023.
* C177: `I2cEeprom::write` does not split data at the pages of the device: what goes over the end of a page is written to its beginning. With addresses of two bytes the driver clears bit 2 of the address of the device for addresses below 64 KiB: a 24C256 at 0x54 cannot be used (the
  one at 0x50 is written). `read(uint16_t address, T&)` takes 16 bits where `write(uint32_t address, const T&)` takes 32: a value written beyond 64 KiB is read from below. `writeByte` passes the address of its parameter to the transaction, which a master that works with interrupts reads later.
* C179: a fade that takes more than 128 ms for each unit of an 8-bit value overshoots (the documentation says it would finish before): from 1 to 0 in a second an LED goes to 0, then to 255 for most of the second. A fade of 0 to 255 in 16321 ms goes up to 127 and jumps.
  `FastRamp<uint32_t>` from a value to itself keeps only its lower 16 bits (`end << 16` in 32 bits), `FastRamp<uint16_t>` on AVR only the lowest bit: what `Indicator` shows between its fades is wrong. On AVR 32768 and more steps are negative ones.
* C180: `animateTo` with 8-bit values and 65536 ms divides by zero; 65537 ms last one.
* C181: `KeyFrameAnimation::isAnimating` is false once the last frame has started. With `Autoreverse` a single frame is not repeated, `getMode` returns a value that is no mode while the animation runs backwards, and `stop` during the last frame sets the first. Each frame is started one `update` late.
* C182: `Indicator::setPeriod` makes periods too long by the two fades (1190 ms instead of 1000), `Strobe::setPeriod` by the pause (1100 ms); for periods that are shorter than the fades the length wraps around to more than a minute. `Strobe::setPeriod` shortens the first flash where it
  means the second, and changes frames before it returns false.
* C183: `a = *any_cast<T>(&a)` destroys the object before it copies it (`std::any` copies first); an over-aligned type is accepted and misaligned (`inplace_function` asserts the alignment).
* C184: `swap` with an empty `inplace_any` leaves the other one holding an object that was moved from: `has_value()` is true for both, where `std::any` leaves it empty.
* C186: two off-by-ones cancel for the mean (`samples <= Channels` resets the first element a second time, `++samples <= totalSamples` takes one conversion more), so that each readout takes one conversion too many and the first one is thrown away. With `Oversamples * Channels` = 255 or 65535 the counter cannot exceed it, and the readout never ends.
* C187: `startReadout` with `Oversamples` = 1 is never refused, and with more not before the first interrupt.
* C188: a view that replaces itself in its `update` (`push` of another, then `remove`): `ViewStack::update` pops the new view and deletes it, and the old one, which was told that it is removed, is updated again. Removing the last view follows a null pointer, and the check of `update` for an empty stack reads the front of an empty list. `~ViewStack` deletes no views. `GuiViewStack` has a stack of its own, `shortButtonPress` uses that of its base, which is always empty.
* C189: a view that pushes another in its `update` (the GUI does nothing else: events are handled in `update`) is drawn over the new one if `hasChanged`. `pop` does not draw.
* C190: `ScrollableText` with a space of more than 255 letters loops forever (a counter of 8 bits). `operator =` copies the position but shows the beginning.
* C191: 256 entries are drawn as none. RIGHT of an empty `StandardMenu`, OK and `initialise` of an empty `ChoiceMenu` follow a null pointer.
* C192: the first entry of a `StandardMenu` scrolls exactly when it is not selected, since it is toggled when it is left but not at first. The space of texts of all `ChoiceMenu`s is that of the first display.
* C194: `Mcp23x17::setInput` clears the bits of the output latch in the driver's memory but not in the chip. A pin that was set, became an input and is made an output again is driven high, while `isSet` says low, and `toggle` writes the level it has. `writePort` calls `memory.outputLatch.clear(...)`, which `modm::Flags` does not have: it (and so `GpioExpanderPort::write`) does not compile for this expander.
* C195: `Pca9535` begins with `output = 0` and `configuration = 0` (all outputs, low) and has no `initialize`; the chip begins with all pins inputs and its output register all ones. So the first `setInput(P0_0)` makes the other fifteen pins outputs, driven high; the first `setOutput(P0_0)` makes all sixteen outputs. Remedy for users: name all pins in the first call about directions and use `writePort` first.
* C196: `Pca8574::writePort` does not mask with the directions and pulls inputs low, though the interface says `only modifies pins that have previously been set to output`.
* C198: `GpioExpanderPin::setOutput(bool)` is `set(value)` only. After `initialize` of an MCP23x17 it does nothing at all, since `set` is for outputs only.
* C202: `GpioStatic::getDirection` on the F1 tests `mode > 0` after `mode == 0`, so it never returns `In`: inputs (floating 0b0100, pulled 0b1000) are reported as `Out`. An alternate function with push-pull and 10 MHz (0b1001) is reported as `Out`, too, since the comparison is `>` 0b1001.
* C203: on the F1 `setOutput()` is `configure(PushPull)`, so `setOutput(OpenDrain)` followed by `setOutput(High)` drives the line high; other families keep the type. `setInput()` on those clears it, however: `setInput(); setOutput();` makes a push-pull output there.
* C205: all statements for `MODER`, `PUPDR` (STM32) and `PORT`, `DDR` (AVR) read the register and write it back; a change by an interrupt in between is lost. On the STM32 levels are safe since they go through `BSRR`.
* C200: `SoftwareGpioPort::write` of the STM32 writes both the set and the reset bit for inverted pins given 0. It is right because `BSRR` gives priority to the set bit.
* C206: `setPeriod` calculates `cycles` in 64 bits but stores them in 32: `setPeriod<SystemClock>(60s)` at 72 MHz gives a period of 0.348 s without a word. Between 65535² + 1 and 2^32 − 1 cycles (59.6506 s to 59.6523 s at 72 MHz) the prescaler of 16-bit timers is 65536, stored as 0, and the next line divides by it; so does any duration of less than a cycle. A duration of one cycle gives `ARR = 0`, which blocks the counter.
* C207: all overloads of `configureOutputChannel` clear `0xff << offset` in the mode register, but the modes `Combined1`, `Combined2`, `Asymmetric1` and `Asymmetric2` use bit 16, too. A channel that had one of them and is configured as `Pwm` runs in asymmetric mode 1. `setNormalPwm()` and the like clear the right mask (C208).
* C210: `getCompareValue` reads the word `CCR1 + channel − 1`, also for the channels 5 and 6 of extended timers, for which `setCompareValue` uses `CCR5` and `CCR6`; it returns `BDTR` for channel 5.
* C211: the comments at `setDeadTime` give other offsets (32, 4 and 2) than the reference manual (64, 32 and 32); the names of `DeadTimeResolution` and the code follow the manual.
* C212: `setOutputIdleState` lacks a complement: `flags &= mask` keeps the old states of the channel and clears everything else in `CR2`, i.e. the idle states of the other channels, the master mode and the preloading of the control bits.
* C215: `oscillatorRunning` returns `(scratch[0] | 0x20) > 0`, which is always true; `&` is meant.
* C216: `enableOscillator` of the DS1302 writes 0 to the register that contains the halt flag and the seconds: the seconds of a clock are lost, also when it already runs.
* C218: `read` of the DS1302 samples the line before the falling edge at which the chip puts out bit 0; `readRtc` has a `Sclk::reset()` there. The result is the register shifted left by one.
* C219: `getYear` of the DS1302 returns the two BCD digits undecoded, year 26 is 38.
* C221: after the last byte of a buffer the interrupt of AVRs asks the object for the next one and sends its first byte without looking at the length: an empty buffer (allowed by `Writing`) is read behind its end, and the length is 65535 then. For something to read of length 0 (`configureRead(nullptr, n)`) a byte is received and stored behind a null pointer.
* C222: `reset()` of the AVR master sets `transaction` to null, but leaves the interrupt on: the next one after START or after the last byte dereferences null; while reading, the length wraps to 65535 and the following bytes of the memory are overwritten. `start` with an object that is busy (with another master) returns false, but sets the state of the object to `Error`.
* C223: the interrupt of STM32 reads `SR1` once. If it comes so late before the last byte that `BTF` is set already, it writes the byte, and takes the old flag for the end of this byte: STOP and `noError`, even if the last byte is not acknowledged. If it comes late with four bytes left to read, it stores one (`RXNE`) and in the same call treats the old `BTF` as the one for three bytes left: `ACK` is cleared one byte too early. The address 0 (general call) that nobody acknowledges is reported as `DataNack`, as `starting.address` doubles as a flag.
* C224: with a buffer of one byte that follows another one the same happens though interrupts are in time (the flags are `TXE` and `BTF` always); an empty buffer that follows another one makes the interrupt come again and again. `Restart` after a read is STOP and START.
* C225: a transaction that has to wait is pushed with the current `configuration` instead of the `handler` given to `start`; so its own handler is never called.
* C226: `reset()` does not switch the interrupts off; the next one after START dereferences null.
* C227: the driver enables `STOPIE` only after the last byte was given to the peripheral, and never `NACKIE` or `ERRIE`. So if a device does not answer and there are at least two bytes (or one and a restart), `TXIS` never comes, STOP is sent, and no interrupt follows: the transaction is never over and all others wait. The same if a byte is not acknowledged and more than one is left; otherwise `AddressNack` is reported, as `starting.address` is never cleared. With more than 255 bytes to read, `TCIE` is switched off by the first `RXNE` and not on again: after 255 bytes the master waits for ever (if the interrupt for byte 255 is served before `TCR`). `ISR` is read before `STOPF` is cleared: a STOP condition in between is lost.
* C228: an empty buffer that follows another one writes 0 to `NBYTES`, which does not clear `TCR`, and enables `STOPIE` only: the master waits for ever. `Restart` after a read sets `RELOAD` and waits for `TCR`, for which nothing is done. `start` calls `starting()` once before `attaching()` and once again in `callStarting`. `reading.length` is kept after a read that was not acknowledged; at the next `TCR` with nothing left to write, it is taken for a read to be continued.
* C229: as in C225 for the handlers.
* C230: `reset()` does not switch the interrupts off: bytes are still stored by `RXNE` (the length wraps around), `TC` dereferences null. `start(nullptr)` calls `transaction->starting()` before it checks for null.
* C231: `getOffset` returns for sectors 0 to 3 the begin of the *next* sector (`1 << 14` for sector 0), so `getAddr(0)` is 0x0800'4000; `getSize` tests `index == 5` instead of 4. The second bank is right only for `getPage` of its first 128 KiB.
* C232: the page is an `uint8_t`; offset 512 KiB of STM32F103xG is said to be in page 0, which is then erased.
* C233: `SNB` of the second bank begins with 16 (RM0090), the driver writes the index of the sector: `erase(16)` erases sector 12, `erase(12)` to `erase(15)` nothing. On STM32G474 (two banks) `PNB` has seven bits and `BKER` is never set: `erase(128)` erases page 0. F1 returns `PGERR` only, not `WRPRTERR`.
* C234: `FLASH->SR |= FLASH_SR_EOP` writes back all error flags that are set, which clears them (they are cleared by writing 1); then `FLASH->SR & FLASH_SR_ERR` is read, and is 0. F1 never clears `PGERR`.
* C235: while the controller is locked writes to `CR` have no effect, `erase` returns 0.
* C236: `operator++` compares with `>=` *after* the byte at `end` may be written: a report that reaches the end of a region writes one byte beyond it (the word behind the heap), and if the next region begins there this byte of the report is overwritten. An end marker that is split between two regions is not found. Past the last region the iterator reads behind the table. `g_crashCatcherStack` is a symbol of the linker script, but its *contents* are compared.
* C237: `operator++` keeps the offset of the report for all later regions; of a region shorter than this the start lies behind the end and `size` is almost 4 GiB. If the report ends where the region ends nothing is left out at all.
* C238: `if (traits & trait_mask)` means any of the traits. A region is joined with the one before only if that is the largest so far. A region at address 0 (ITCM) leads to the result false.
* C239: `(pool->traits & traits) == traits` is true for `traits == 0`, so for the entries not in use as well: `new (MemoryTrait::TypeCoreCoupled)` without such memory left calls `tlsf_malloc(NULL, size)`.
* C240: newlib calls `_calloc_r(r, n, size)`; `__wrap__calloc_r(r, size)` takes the number for the size: `calloc(10, 4)` returns 10 bytes.
* C242: `BASEPRI` = 0 means that nothing is masked: `LockPriority(0)` protects from nothing, as does a priority with more than the implemented bits, whose encoding wraps to 0.
* C244: `__cxa_guard_acquire` loads the guard and exchanges it separately. A handler that comes between and uses the same object constructs it; the interrupted call then constructs it again, and while it does so the guard is set back to INITIALIZING.
* C247: `Lock` derives from `CoreLock`, so the spin lock is claimed before interrupts are disabled, and released after they are enabled again. A handler with a `Lock` at these points waits for ever, as does a `Lock` inside of a `Lock` (on single cores this nesting is allowed). `SpinLockBlocking` has the right order.
* C249: `Core1::run` passes `&__main1_stack_top` as the bottom of the stack, so the stack of core 1 begins one stack size above its own, with the default sizes in the middle of the stack of core 0.
* C251: `setDotCorrection` does not mask the value: 64 sets a bit of the next channel.
* C252: `spread` should move bits 0, 1, 2, 3 of a half byte to 10, 7, 4, 1; the shifts of the last two are wrong (7 and 4). So bits 1 and 2 are combined, bit 3 is sent as bit 2, and the highest bit is never sent. `gather` is wrong in the same way, so `getColor` hides it for most colours.
* C255: in the extended format of the TMP102 bit 0 of the register is 1 to mark the format; `temp / 128.f` includes it, +0.0078 °C.
* C256: `int16_t(data[0])` with an unsigned `data[0]`: −25 °C gives 231. MCP990x: 150 °C gives −106.
* C257: −25.0625 °C gives −2505 instead of −2506.
* C259: 25 °C is written as 3.125, 12.5, 50 and −56 °C for 9, 10, 11 and 12 bits.
* C260: for 8 Hz the code sets Hz1 and then Hz4 and expects the bits to be combined, but `Configuration::set` clears first.
* C261: TMP175 waits 29 ms × (res + 1) although the time doubles with each bit; DS1631 always 232 ms. `Ds1631::run` starts conversions only in continuous mode. The default address 0x90 is shifted left again: 0x20 on the bus.
* C262: `getTemperatureFast` divides by 100 instead of R0. `readout` sets OneShot in its copy of the configuration and never clears it.
* C263/C264: `11 * (temp + 1500) * (temp + 1500)` is computed in `int`; for temp < −15472 it overflows. The formula of the data sheet is evaluated exactly in the specification.
* C265: a remainder of zeros is zero, so a bus that reads zeros gives `initialize() == true`; `readProm` of MS5837 returns 0 for a failed transaction. Bits 4 … 7 of word 7 of the MS5611 are covered by neither part of the check.
* C266: `rawPressureTouched` after the first half of a readout lets a getter compute the new pressure with the old temperature; the second half does not clear the flag of the pressure. BMP085 clears the flags before the transaction that fetches the data.
* C267: the quotient X2 is C's (towards zero), as in the code printed in the data sheet. `int16_t(calibration.ac5)`: the example of the data sheet has AC5 = 32757, eleven below the limit.
* C269 (AD7280A): a bus that stays low passes the check: the remainder of 0 is 0.
* C271 (AD7280A): `readChannel` writes the channel to the read register without shifting it by two, so it succeeds for the first channel only. The unit test of the repository compares the words sent, and so expects the wrong ones.
* C271 (AD7280A): without a device `readAllChannels` returns true and six voltages of 0 V; `chainSetup` returns true always; the averaging of `initialize` is stored in `controlHighByte` and never sent.
* C272 (ADS101x): the mask of `ComparatorQueue_t` is `Bit4` instead of `Bit1 | Bit0`. After `initialize` the comparator and the conversion-ready pin stay disabled, and the window mode stays off, for every sequence of calls.
* C272 (ADS101x): not modelled: overloads without input (`startSingleShotConversion()`), which keep the input.
* C274 (AD7928): `startSequence` and waking from `fullShutdown` turn the automatic shutdown off; with it on, the second `nextSequenceConversion` returns old data without a transfer. The device (channel selected one transfer ahead, shadow register, power modes) is a specification in `Props/AdcDrivers`, from the data sheet; times are left out.
* C275: `freeMemory` reads the marker above the last block from behind the heap. A negative byte there (the stack) is taken for a free run: markers are written behind the heap and later memory lies outside.
* C275: free runs are cut into `MAX_BLOCK_PARTS` and the rest, and the rest is stored in one byte. With the default settings and 3 KiB of heap three blocks freed in the order 1, 3, 2 give -128, and a later `malloc` walks below the heap. With `MAX_BLOCK_PARTS` 127 the largest request (128 slots with the markers) does it at once.
* C275: `p = malloc(1024); free(p); malloc(1024)` fails with the default settings, on an otherwise unused heap: the freed run is cut in two.
* C275: the byte read by a walk is taken to be the one of the last store; freeing a pointer that is not held is outside of the model. Reset memory of any contents is covered by the counterexamples only.
* C276: word granularity, since the linker script aligns all sections; caches and registers of the core are left out, `SystemReset` after `main` as well.
* C278: `malloc(0)` returns null on AVR, so `new char[0]` ends in the failed assertion.
* C279: `mapping_search` rounds a size in the last list up to `FL_INDEX_COUNT`, and `search_suitable_block` reads `sl_bitmap[FL_INDEX_COUNT]` and from there any block. The largest size is the next power of two above the memory, so `malloc(32000)` on a device with 20 KiB does it (`fl_index_max` 15) instead of returning null.
* C279: a pool of exactly `1 << FL_INDEX_MAX` bytes passes the check of `tlsf_add_pool` but has no list; the theorems ask for a smaller pool.
* C281: `adjust_request_size` gives 0 for sizes from `1 << FL_INDEX_MAX` on. `tlsf_realloc` then takes the block as large enough, trims it to nothing and returns the old pointer; the next `malloc` hands out the same memory. `malloc` returns null for these sizes.
* C279 – C281: the last word of a size that is no multiple of four is copied whole by `realloc`; the null block of the control structure is at address 0 and its bitmaps and heads are not part of the memory.
* C283: `Hd44780::clear` empties the controller and sends its cursor home but leaves `column` and `line` of `CharacterDisplay`; the next text wraps at the wrong place. After a full line and `clear` it starts in the second line.
* C283: `setCursor` accepts `line == lineCount` and `column == lineWidth`; in the first case the text is written into memory that is not shown.
* C284: `writeCGRAM` refuses characters above 8 instead of above 7; number 8 replaces character 0. It leaves the controller addressing the memory of characters, so that text goes there until the cursor is set. The result of `writeRAM` is not looked at: a row is lost if the controller takes longer than 51 µs (53 µs at the slowest clock of the data sheet).
* C285: `St7036::setCursor` has its parameters the other way round than declared (`newLine, newColumn`); `CharacterDisplay::write` passes the column first. On displays with two or three lines a line feed goes to the first line.
* C287: the wait goes on only while *both* directions are incomplete (`not dmaTransmitComplete and not dmaReceiveComplete`). Without FIFO only Busy is looked at afterwards: the call can return before the receive channel has stored the last byte. DMA is then switched off, the byte stays in the data register and is returned by the next transfer of a single byte.
* C287: `dmaDummy` is the source for transfers without `tx` and the destination for transfers without `rx`; after one of the latter, the last byte received is sent in place of zeros.
* C287: the length is written to a register of 16 bits; 65536 + n bytes send n. With no bytes (or 65536) neither channel ever completes and `transfer` never returns, though by polling a transfer of no bytes returns at once.
* C287: overrun is not looked at; a byte that found no room is missing in `rx` and the transfer returns as after success.
* C288: `Channel::interruptHandler` calls `disable()`, which is the one of the enclosing `DmaController` and switches off the clock of the whole controller (the documentation says the channel is disabled). Nothing switches it on again; no later transfer returns.
* C290: `pageErase` and `blockErase` send the address without the opcode (`PAGE_ERASE`, `BLOCK_ERASE`); the upper byte of the page number is taken for an opcode, of which none from 0 to 15 erases. A following `copyBufferToPageWithoutErase` then stores the bitwise and of old and new contents.
* C291: the change to pages of 256 bytes takes effect only at the next power cycle (data sheet, "power of 2 binary page size option"), but `initialize` returns true and all addresses are formed for 256 bytes: pages 2k and 2k+1 are the same page. The change is also sent without waiting for the device to be ready, and is ignored if it is busy; `waitUntilReady` comes after it.
* C292: `isWriteFinished` of the AVR is "queue empty and `UDRIE` off"; the handler turns `UDRIE` off as soon as the data register is empty again, when the last byte has only just been moved to the shift register. `writeBlocking` and `flushWriteBuffer` ("just wait until the last byte has been sent") return one frame too early; `TXC` would tell.
* C293: the handler ignores the result of `rxBuffer.push`; a queue that is full loses bytes while `getErrorFlags` stays 0.
* C295: packets for all are reported as `FinishedAck`, because `TX_DS` is set after they were sent; neither `sendPacket` nor `initialize` clears `TX_DS` and `MAX_RT`, so that a flag left over (acknowledgement between reading the status and the timeout, or a reset of the processor) is taken for the next packet, which is then flushed unsent.
* C296: `setMode(Rx)` flushes the queue of received packets although `RX_DR` stays set: packets that the device has acknowledged are lost whenever a packet is sent before they are fetched, and the next `getPacket` returns true with invented data. `initialize` neither clears `RX_DR` nor, when called again, leaves the mode `Rx` it remembers.
* C297: `Ssd1306<I2c, 32>` sets the window of the controller to eight pages (ssd1306_impl.hpp:87-92) and sends only four of them per update. The
  pointer of the controller is not set before an update, so the updates go by turns to pages 0 to 3 and 4 to 7. For the same reason
  an interrupted transfer moves all later pictures until `initialize` is called again.
* C299, C302: `Nokia5110`, `Ks0108`, `St7565` (EA DOG), `Max7219Matrix` and `Max7219MatrixHorizontal` read `buffer[x][page]`, but the buffer is
  declared as `buffer[BufferHeight][BufferWidth]` and written by `setPixel` as `buffer[page][x]`. Every update reads outside of the buffer (for
  all pictures). `SiemensM55`, `SiemensS65`, `SiemensS75` and `Nokia6610` read the same way and are not modelled.
* C300: `St7565::update` moves the picture by four columns with `TopView`, which fits a width of 128 only; the number should be 132 minus the width.
* C297–C302: the controllers are modelled after their data sheets: only their memories, pointers, windows and the direction of the segments; the
  commands for voltages, clocks, contrast, scrolling and the direction of the lines do nothing in the model. Busy flags and pins are left out.
* C305: `RttBuffer::getSize` (rtt.cpp.in:48-53) tests `head > tail`, so an empty buffer (head = tail) has the fill level `size`.
  `transmitBufferSize()` and `receiveBufferSize()` return it. `RttBuffer::write` calculates modulo `size` before any test; with the size 0, which
  module.md allows, this is a division by zero, and startup.c.in switches the trap for it on.
* C303–C305: the debugger is modelled by the protocol of RTT (it moves its own index only and reads the other one). The order of the accesses to the
  bytes, which are not volatile, relative to the volatile indices is taken from the source. `discardTransmitBuffer`, `discardReceiveBuffer` and
  `flushWriteBuffer` do nothing in the source and are left out.
* C307: `Touch2046::getTouchPosition` converts the result to `uint16_t` before it limits it, so that a touch left of or above the display is reported at
  the opposite edge. `x * cal.FactorX` overflows (undefined behaviour) for raw values from 2148 on with the default factor of 1000000, though raw values
  go up to 12285; factors up to 0.174803 are safe.
* C306–C309: the converter is modelled after its data sheet at the level of bytes (16 clocks per conversion); the reference, the settling of the
  inputs and the pen interrupt are left out. Which of the two axes of an ADS7843 is called X is not part of the claims.
* C310: `Pca9548a::writeCommandRegister` stores the new value before the transaction. If it is not acknowledged, `start` on this channel returns false once, but
  the next attempt skips the selection and talks to the devices of the old channels. `readCommandRegister` copies the buffer before the
  transaction has read it and takes the copy for the state of the chip. A chip that was not reset together with the program is not noticed either.
* C311: the value 0 programs LEDn_ON = LEDn_OFF = 0, which the data sheet of the PCA9685 excludes; the bit for full off would be right.
* C312: `getAngleDeg` and `getAngleRad` divide by 16383 instead of 16384. Floats are replaced by exact fractions. The error flag (bit 14) and the parity of
  the answer are not checked.
* C310–C313: a transaction that fails is taken to fail at the address. The restart and sleep bits of the PCA9685 and its outputs during an update are left out.
* C314: `Widget::handleInputEvent` compares with `position < coord`, so the first row and column of a widget, which are drawn, do not react. `View::update` goes
  through the widgets from the top, `WidgetGroup::handleInputEvent` from the bottom.
* C315: a release outside of a widget is not told to the widget that was pressed; there is no event for this.
* C317: a group only renders children that are dirty, even if it is drawn because a widget below it was drawn. Intersections are only looked for in
  `View::pack`. In the model children of groups are no groups; what widgets draw is taken to fill their rectangle, and no more (the frame of a
  check box has one pixel more on the right; widgets that touch are redrawn, so it stays hidden).
* C318: the float is an exact fraction, the int is taken to be large enough.
* C320: `WidgetGroup::setColorPalette` has `this->setColorPalette(cp)` where `Widget::setColorPalette(cp)` is meant.
* C314–C320: coordinates do not overflow int16_t. `uid_global` is a static variable in a header, so each translation unit has its own and
  identifiers can be equal; the model takes them to be different.
* C321, C322: floats are exact rational numbers, so results at the border of a rounding can differ from the code. The theorems are for target speeds where the mode
  of the calculator is that of the specification (to 100 kHz, 250 to 400 kHz, 700 kHz to 1 MHz).
* C322: `findHoldTimeSettings` subtracts the delay of the analog filter without looking at `enableAnalogFilter`; `std::max(0.0f, sdaDelMaxTime)` accepts a delay
  of 0 where no delay is short enough (1 MHz with 16 MHz); `I2cMaster::calculateTimings` passes 0 for rise and fall times, so the set-up time is too
  short on a bus with the rise time allowed in fast mode.
* C324–C326: angles are elements of any Archimedean ordered group, π any positive element; the proofs are for exact arithmetic, and cosine and sine are any
  functions with the addition theorems and the period. The rounding to single precision (`rnd32`, magnitudes from one on) is used for the counterexample only. Rounding of
  integer coordinates and the negative zero are not modelled.
* C324: `Angle::normalize` never returns for large floats (2²⁸), where subtracting 2π does not change the value (also for infinity, not modelled).
* C325: `Angle::reverse(0)` is -π, the documented expression gives π; angles outside of [-π, π] are not normalised.
* C327: with orientations exactly one FLT_EPSILON apart `Location2D` is neither `==` nor `!=`.
* C328: times shorter than the overhead (default 4 cycles) wrap to about 2³² cycles. C329: the underflow of SysTick adds `LOAD` instead of `LOAD + 1`.
  C330: `nanoseconds()` has 32 bits.
* C331–C333: steps are the sections under the mutex; the condition variable may wake threads at any time and reports a timeout exactly if the deadline has been reached when
  the thread resumes (as libstdc++ does). Mutex fairness and the destruction of the semaphore are not modelled.
* C332: a thread that is notified but gets the mutex at its deadline returns `false` though the semaphore is available, and nobody else is notified.
  C333: the loop in `acquire()` waits for the whole timeout again after each wake-up.
* C334–C336: the registers of the lines 0 to 31 with the pending bits of the reference manuals (set by edges also if masked, cleared by writing a one); lines 32 and up,
  events, priorities and nesting of interrupts are not modelled. Edges arrive between steps: while a handler runs and between acknowledging and selecting the source.
* C334: `setTriggerSource` uses four bits for each line in `EXTICR`; in `EXTI` of G0, L5 and U5 (`exti_reg`, module.lb) a line has eight: line 1 stays at
  port A and line 0 gets a port that does not exist. The width of the fields is from the reference manuals, not from the sources in /repo.
* C335: `Exti::irq` clears the pending bit after the handler, so an edge while the handler runs is lost.
* C336: `connect` acknowledges before it selects source and trigger, so an edge of the previous pin calls the new handler.
* C337–C339: flags, handlers and enable bits of up to eight channels or streams; transfers themselves, addresses, priorities and request multiplexers are not modelled.
  That a controller without clock ignores writes is an assumption about the hardware (used only for the flag in C338_controller_counterexample).
* C337: `interruptHandler` clears with `InterruptFlags::Global`, not with the flags it has read. C338: `disable()` is found in the enclosing `DmaController`.
* C340–C342: registers of bank 0 and one core; edges arrive while or after the handler of a pin runs. Levels cannot be acknowledged (data sheet). The number of pins, 30,
  is `NUM_BANK0_GPIOS` of the vendor's headers, which are not in /repo.
* C341: `group < NUM_BANK0_GPIOS / 8` are three groups; an edge at pins 24 to 29 stays latched and enabled, so the interrupt never ends.
* C343–C345: rational numbers instead of `float` (no rounding, no overflow, no NaN); the square root is any function for C343 and one that rounds down for C344.
  Integer types of the template are not modelled. C345: `additionalDistanceToStop` is missing in the initialisers of the constructor.
* C346–C348: little endian on both sides; the form of the packets is taken from the data sheet (headers, order of the fields, one or two bytes of temperature). Fields that a
  packet does not have keep their old values; conversions to `float` and the transport are not modelled.
* C346: `readFifoData` reads as many bytes as fit into the buffer, and `parse` compares only the position of the header with the size.
* C347: data sheet: 19 bits of resolution, 131 LSB for each degree per second, so the number of 20 bits must be halved. C348: see `memcpy(&temp, …, 1)`.
* C349–C350: the frames of the data sheet (read bit, four bits of address, eleven bits of data); an accessor and the change through its reference are one step. Changes through a
  reference that was kept since before the last commit are not modelled (they would not be written either). Other threads run only while a transfer waits.
* C351–C352: `RXF` is polled; each poll finds a byte or not. The chip stays ready between the poll of `TXE` and the falling edge of `WR`; times of signals are not modelled.
* C353: only the loop over the configuration; the reset with its time-outs and the clocks at the end are not modelled. `DONE` and `INIT_B` depend only on the number of bits received. That the size
  in the comment (439,264 bits) and not the value of the enumeration is right is checked by the other rows of the table (bits = 8 · bytes).
* C354–C355: the standard maps are sorted lists. A callback reads its whole parameter. Callbacks that register others while they run, and null objects, are not modelled.
* C356–C357: one pin on its vector. The memory of the channel is available; several pins on a vector and `dump()` are not modelled.
* C358–C359: the chip follows the data sheet of 23K256 in sequential mode; `initialize()` is not modelled. A byte on the bus does nothing while the chip is held or not selected.
* C360–C361: with `buffer.tx` and the macrocell enabled in the theorems; the queue is a list with a capacity, one thread. The debugger is assumed to take the bytes of an access from low to high.
* C362–C363: transactions on the bus are atomic. What the chip does with its page at a reset is not in the repository: both cases are modelled, the properties are proved for one and refuted for the other.
* C364–C365: with the option `multichannel_write`; transactions on the bus are atomic. The registers of the chip, their values after a reset, and what an output shows are taken from the data sheet, which is not in the repository; only the addresses and bits are.
* C366–C367: transactions on the bus are atomic; the registers have the defaults given in the comments of the header. Accelerations are multiples of g/0x7FFF without rounding. What the chip sends without ADD_INC is taken from the data sheet.
* C368–C370: calls run to their ends one after another. `unsigned long` has 32 bits. The memory of the chip and its instructions are taken from the data sheet. `MuxConfigDelay` has the address of `MuxChannels` (ltc2984.hpp:105,107), and the call that would write it does not compile (ltc2984_impl.hpp:49); it is not modelled.
* C371–C372: INIT_B and DONE are functions of the poll, or of the number of words written; two polls of a pin in the same turn of a loop are one. LEDs, log and delays are left out. `pos` does not overflow for the sizes in `fpga_type.hpp`; it is a natural number.
* C373: calls run to their ends one after another. The EEPROM is taken from the data sheet (pages of 16 bytes, no acknowledge while storing). `writeByte()` passes the address of its parameter (cat24aa.hpp:77-81), which is gone if the resumable function is called again; it is not modelled.
* C374: the expander is taken from the data sheet (frames, the registers GPIO, OLAT, IODIR and IPOL). `initialize()` does not write IODIR, GPPU and OLAT, so the theorem begins at a reset of the expander; delays and the interrupt pin itself are left out.
* C375–C376: calls run to their ends one after another. The block protocol of the sensor is taken from the data sheet. The machine is little endian. Memory after `Data` is modelled, although writing there is undefined behaviour, to state which byte is overwritten.
* C377–C378: calls run to their ends one after another. The commands of the sensor are taken from the data sheet. The machine is little endian.
* C379–C380: calls run to their ends one after another. The compass is taken from the data sheet. Time-outs between transfers and the commands that change modes are left out. The machine is little endian. A call that fails may have written the low byte of an angle.
