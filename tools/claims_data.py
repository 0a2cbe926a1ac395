# ---------------------------------------------------------------- containers
P("C01", "Interrupt-safe queue is a bounded FIFO",
  "For every capacity N the queue type supports and every sequence of push and (pop only when not empty) calls on a fresh modm::atomic::Queue<T,N>, push succeeds exactly when fewer than N elements are stored, get() returns the oldest stored element, and isEmpty/isFull/getSize report emptiness, fullness and the exact number of stored elements; no access leaves the buffer.",
  "every capacity N up to 65535, element type, initial buffer contents and every finite sequence of calls",
  "Index wrap-around happens only after arbitrarily many calls and at a position that depends on N and on the 8/16-bit index type; tests sample a few N and short histories.",
  [A+"driver/atomic/queue.hpp: Queue", A+"driver/atomic/queue_impl.hpp: push, pop, get, getSize, isFull, isEmpty"])
P("C02", "Interrupt-safe queue under interleaving",
  "With one producer and one consumer whose individual loads and stores interleave arbitrarily, the values the consumer takes out are exactly a prefix of the values successfully pushed, in order, without loss, duplication or torn slots.",
  "every interleaving of the individual memory accesses of one producer and one consumer, every N, every history",
  "The number of interleavings is unbounded; a test executes one schedule.",
  [A+"driver/atomic/queue_impl.hpp: push, pop, get, isEmpty"])
P("C03", "Deque refines a bounded double-ended list",
  "Every sequence of append, prepend, appendOverwrite, prependOverwrite, removeFront, removeBack (removals only when not empty) and clear on BoundedDeque<T,N> behaves like the same operations on a list of at most N elements: results, size, front, back agree, and the overwriting variants drop exactly the opposite end.",
  "every N >= 1, every element type and every finite history",
  "Wrap-around positions depend on the whole history; unit tests use one or two sizes.",
  [C+"deque.hpp: BoundedDeque", C+"deque_impl.hpp: append, prepend, appendOverwrite, prependOverwrite, removeFront, removeBack, clear"])
P("C04", "Deque indexing",
  "After any history, get(i) is the i-th element from the front and rget(i) the i-th element from the back for every i below the size.",
  "every N, history and index below the size",
  "Index arithmetic has a different branch for every ring position.",
  [C+"deque_impl.hpp: get, rget, getFront, getBack"])
P("C05", "Deque iteration",
  "Iterating from begin() to end() visits exactly the stored elements from front to back, once each, for every content including the empty deque.",
  "every N and every reachable deque state",
  "Tests iterate over a few filled deques only.",
  [C+"deque_impl.hpp: const_iterator::operator++, begin, end"])
P("C06", "Singly linked list refines a sequence",
  "Every history of prepend, append, insert-after, removeFront, removeAll and remove(iterator) on LinkedList behaves like the same operation on a sequence; getFront/getBack/getSize/iteration agree with the sequence, no live node is ever freed or dereferenced after being freed, and the destructor frees every node exactly once.",
  "every finite history of operations with valid iterators and every allocation order of node addresses",
  "Pointer-structure invariants must hold for every shape of the list and every history.",
  [C+"linked_list_impl.hpp: prepend, append, insert, removeFront, remove, removeAll, getSize, ~LinkedList"])
P("C07", "Doubly linked list refines a sequence",
  "Every history of prepend, append, removeFront, removeBack and erase(iterator) on DoublyLinkedList behaves like the same operation on a sequence, and walking the previous pointers from the back yields the exact reverse of walking the next pointers from the front.",
  "every finite history of operations with valid iterators and every allocation order of node addresses",
  "Both pointer chains must agree after every history.",
  [C+"doubly_linked_list_impl.hpp: prepend, append, removeFront, removeBack, erase"])
P("C08", "Dynamic array refines a sequence",
  "Every history of append, removeBack (when not empty), reserve, removeAll, clear, indexing and copy on DynamicArray behaves like a sequence; size <= capacity always holds; every constructed element is destroyed exactly once and no element is read outside its lifetime.",
  "every finite history of operations on one array, including assignment from any array",
  "Relocation happens at sizes that depend on the history; lifetime errors are invisible to value-based tests.",
  [C+"dynamic_array_impl.hpp: append, reserve, removeBack, removeAll, clear, relocate, operator="])
P("C09", "Shared buffer is freed exactly when its last handle dies",
  "For every history of creating, copying, assigning and destroying SmartPointer handles, a shared buffer is freed exactly when its last handle goes away and never used afterwards.",
  "every finite history of handle operations, any number of handles",
  "A counter overflow needs more handles than any test creates; use-after-free may go unnoticed.",
  [C+"smart_pointer.cpp: SmartPointer(const SmartPointer&), ~SmartPointer, operator="])
# ---------------------------------------------------------------- timers and schedulers
P("C10", "Timeout expiry is correct across clock wrap-around",
  "A timeout armed at absolute time t0 with an interval I that fits the duration type reports expired at absolute time t exactly when t - t0 >= I, provided it is polled before the clock type has wrapped completely since t0, no matter where the clock counter wraps in between.",
  "every start time, interval, poll time and clock width",
  "The wrap happens after 65 s or 49 days; a test clock would have to be placed exactly there for each interval.",
  [T+"timer/timeout_impl.hpp: restart, checkExpiration, state, isExpired"])
P("C11", "Timeout fires exactly once per arming",
  "Between two (re)starts execute() returns true at most once over any poll history, returns true at the first poll that sees the expiry, and never after stop().",
  "every history of restart, stop, state queries and execute at arbitrary times",
  "Histories of mixed queries are unbounded.",
  [T+"timer/timeout_impl.hpp: execute, state, stop, restart"])
P("C12", "Remaining time",
  "remaining() of a running timeout equals the signed time until (positive) or since (negative) expiration: t0 + I - t, for every position of the clock counter.",
  "every start time, interval and query time less than one clock period apart",
  "Wrong only when the clock wraps between start and query.",
  [T+"timer/timeout_impl.hpp: remaining"])
P("C13", "Periodic timer keeps its phase and counts missed periods",
  "After every execute() of a periodic timer with interval I > 0 that fires, the next deadline is t0 + (k+1)*I where k = floor((t - t0)/I), and the return value is the number of periods that elapsed (k).",
  "every start time, interval, poll time less than one clock period later",
  "The boundary cases are exact multiples of the interval and clock wrap.",
  [T+"timer/periodic_timer.hpp: execute"])
P("C14", "Timer intervals are never silently shortened",
  "restart(interval) either arms the timer with the requested interval or reports an assertion failure when the interval does not fit the timer's duration type.",
  "every requested interval in every unit",
  "Needs an interval that overflows only after unit conversion.",
  [T+"timer/timeout_impl.hpp: restart"])
P("C15", "Priority scheduler runs every due task in priority order",
  "On every tick of modm::Scheduler each task whose period elapsed runs exactly once on that tick, higher priorities first and equal priorities in a fixed order, and a task with period p runs on ticks p, 2p, 3p, ...",
  "every set of tasks with any priorities and periods and every number of ticks",
  "Combination of periods and priorities is unbounded; errors appear only after a second expiry.",
  [T+"scheduler/scheduler_impl.hpp: scheduleInterupt", T+"scheduler/scheduler.cpp: scheduleTask"])
P("C16", "Protothread semaphore never over-grants",
  "At every point of every history the number of successful acquires minus releases never exceeds the initial count, and acquire fails only when no permit is available.",
  "every history of acquire and release",
  "The 16-bit counter wraps only after 65536 outstanding releases.",
  [T+"protothread/semaphore.hpp: Semaphore"])
P("C17", "Fiber scheduler is round-robin",
  "From any reachable state, repeated yields run every scheduled fiber exactly once per round in the order the fibers were added, new fibers join behind the running fiber's round, and ended fibers leave the ring without disturbing the order of the others.",
  "every number of fibers and every history of add, yield and fiber end",
  "The circular list has to stay a single cycle after every history.",
  [T+"fiber/scheduler.hpp.in: add, yield, unschedule, removeCurrent, runLast, start"])
# ---------------------------------------------------------------- math
P("C18", "Bit reversal",
  "bitReverse on 8, 16 and 32 bit values puts bit i of the argument at position width-1-i for every argument.",
  "every 8, 16 and 32 bit value",
  "2^32 inputs.",
  [M+"utils/bit_operation.cpp: bitReverse", M+"utils/bit_operation.hpp"])
P("C19", "Bit count and leftmost bit",
  "bitCount returns the number of one bits of its 8, 16 or 32 bit argument, and leftmostBit the position of the highest one bit.",
  "every argument value",
  "2^32 inputs; the divide-free algorithms rely on field widths and a modulo trick.",
  [M+"utils/bit_operation.hpp: bitCount, leftmostBit"])
P("C20", "Byte swap",
  "swap on 16 and 32 bit values reverses the byte order and is its own inverse; the nibble swap exchanges the two halves of a byte.",
  "every argument value",
  "2^32 inputs.",
  [M+"utils/bit_operation.hpp: swap"])
P("C21", "CRC-8-CCITT update",
  "crc8_ccitt_update computes the remainder of the message polynomial modulo x^8+x^2+x+1, so any single-bit error in a message changes the checksum.",
  "every checksum state and every data byte; every message",
  "Error detection is a statement about all pairs of messages.",
  [M+"utils/crc.hpp: crc8_ccitt_update"])
P("C22", "CRC-16-CCITT update",
  "Feeding a message to crc16_ccitt_update yields the reflected CRC-16 with polynomial 0x1021: it is the remainder of polynomial division, is linear, and detects every single-byte change of a message of any length.",
  "every checksum state, message and error confined to one byte",
  "Statement about all pairs of messages of every length.",
  [M+"utils/crc.hpp: crc16_ccitt_update"])
P("C23", "CRC-32 update",
  "Feeding a message to crc32_update yields the reflected CRC-32 (polynomial 0x04C11DB7) of the message, detects every single-byte change, and appending the checksum gives the fixed residue.",
  "every checksum state, message and error confined to one byte",
  "Statement about all pairs of messages of every length.",
  [M+"utils/crc.hpp: crc32_update, crc32"])
P("C24", "Saturating addition and subtraction",
  "Adding to or subtracting from a Saturated<T> value gives the exact mathematical result clamped to the range of T for every pair of operands.",
  "every pair of operand values of every supported signed and unsigned type",
  "All combinations of widths, signedness and values.",
  [M+"saturation/saturated.hpp: operator+=, operator-=, operator+, operator-"])
P("C25", "Saturating multiplication",
  "Multiplying a Saturated<T> value gives the exact product clamped to the range of T for every pair of operands.",
  "every pair of operand values of every supported type",
  "All combinations of signs and magnitudes.",
  [M+"saturation/saturated.hpp: operator*=, operator*"])
P("C26", "Median filters",
  "The value of a median filter of width 3, 5, 7 or 9 is the median of the last 3, 5, 7 or 9 samples after every sequence of samples.",
  "every sequence of samples (including equal samples) and every initial value",
  "The 7 and 9 wide filters keep an incrementally sorted copy whose correctness depends on the whole history.",
  [M+"filter/median.hpp", M+"filter/median_3_impl.hpp", M+"filter/median_5_impl.hpp", M+"filter/median_7_impl.hpp", M+"filter/median_9_impl.hpp"])
P("C27", "Moving average",
  "After any sequence of updates the moving average equals the sum of the last N samples divided by N.",
  "every N, every sample sequence within the accumulator range",
  "The running sum could drift after arbitrarily many updates.",
  [M+"filter/moving_average.hpp: update, getValue"])
P("C28", "FIR filter",
  "After append(x) and update() the FIR filter output is the scaled sum of tap k times the k-th most recent sample for every number of taps and history.",
  "every number of taps, block size, coefficients and sample history",
  "Ring/shift positions depend on the history and block size.",
  [M+"filter/fir_impl.hpp: append, update"])
P("C29", "PID output is limited and anti-windup holds",
  "The PID controller output always lies within [-maxOutput, maxOutput], the stored error sum within [-maxErrorSum, maxErrorSum], and the output has the value of the scaled PID sum whenever that lies inside the limits.",
  "every parameter set, every state and every error input",
  "Sign and width of intermediate integer arithmetic depend on the types.",
  [M+"filter/pid_impl.hpp: update"])
P("C30", "Ramp filter",
  "A ramp filter moves its value towards the target by at most the configured step per update, never overshoots, and reaches and reports the target after finitely many updates.",
  "every start value, target and step sizes",
  "Overshoot occurs only at the last step near the limits of the type.",
  [M+"filter/ramp_impl.hpp: setTarget, update, isTargetReached"])
P("C31", "Debounce filter",
  "The debounced output changes to true only after enough consecutive or weighted true samples and back only after enough false samples (hysteresis), whatever the history.",
  "every parameter set and sample history",
  "Unbounded histories.",
  [M+"filter/debounce_impl.hpp: update"])
P("C32", "Range iteration",
  "modm::range(start, stop, step) yields exactly start, start+step, ... while before stop, and nothing when the direction does not match, and it terminates.",
  "every start, stop and step",
  "Terminates or loops depending on values near the type limits.",
  [M+"algorithm/range.hpp: Range"])
P("C33", "Prescaler selection is optimal",
  "The prescaler chosen by from_list/from_range for a sorted list is an element of the list whose output frequency is closest to the desired one.",
  "every sorted prescaler list, every input and desired frequency",
  "All lists and frequencies.",
  [M+"algorithm/prescaler.hpp: from_range, from_linear, from_power"])
P("C34", "Prescaler-counter selection is optimal",
  "The prescaler/counter pair chosen by PrescalerCounter is the pair in range whose product is closest to the requested ratio.",
  "every prescaler list, maximal counter, input and desired frequency",
  "All lists and frequencies; overflow only for large products.",
  [M+"algorithm/prescaler_counter.hpp: from_range"])
P("C35", "Linear interpolation stays between its supporting points",
  "For sorted supporting points the interpolated value equals the output at every supporting point, is clamped outside, and lies between the outputs of the two neighbouring points elsewhere.",
  "every table of supporting points and every input value",
  "All tables; integer rounding and overflow.",
  [M+"interpolation/linear_impl.hpp: interpolate"])
# ---------------------------------------------------------------- communication
P("C36", "SAB frames round-trip",
  "A receiver waiting for a frame that is fed the bytes of sendMessage(address, flags, command, payload) reports exactly that address, flags, command and payload, for every message with at most 32 payload bytes.",
  "every address below 64, flag, command, payload of up to 32 bytes",
  "All payloads; the checksum byte must always close to zero.",
  [K+"sab/interface_impl.hpp: sendMessage, update", K+"sab/interface.cpp: crcUpdate"])
P("C37", "SAB receiver is memory-safe and self-synchronising on any byte stream",
  "On any byte stream the SAB receiver never writes outside its buffer, and after any garbage a bounded number of non-sync bytes brings it back to the waiting state so that the next frame is received.",
  "every byte stream",
  "All byte streams.",
  [K+"sab/interface_impl.hpp: update"])
P("C38", "An available SAB message is a received frame",
  "Whenever isMessageAvailable() is true after update(), address, flags, command and payload are those of one frame with a valid checksum contained in the received bytes, also if further bytes were read in the same update() call.",
  "every byte stream, split over update() and dropMessage() calls in any way",
  "Depends on how bytes are split over update() calls.",
  [K+"sab/interface_impl.hpp: update, isMessageAvailable, getPayload"])
P("C39", "SAB rejects single-byte corruption",
  "A frame in which exactly one address, command, payload or checksum byte was altered is not reported as a message.",
  "every frame, position and replacement value",
  "All frames and errors.",
  [K+"sab/interface_impl.hpp: update", K+"sab/interface.cpp: crcUpdate"])
P("C40", "SAB2 frames round-trip with byte stuffing",
  "A SAB2 receiver without pending message fed the bytes of sendMessage reports exactly that message for every payload that fits, whatever garbage preceded it unless the garbage itself completes a message.",
  "every message, every buffer size N and every prior receiver state",
  "All payloads including the reserved bytes and all preceding garbage.",
  [K+"sab2/interface_impl.hpp: sendMessage, writeByteEscaped, update", K+"sab2/interface.cpp: crcUpdate"])
P("C41", "SAB2 receiver is memory-safe and never reports an over-long frame",
  "On any byte stream the SAB2 receiver stays inside its buffer, and a frame with more than N+4 bytes is never reported as a message.",
  "every byte stream and buffer size",
  "Needs frames crafted around the overflow handling.",
  [K+"sab2/interface_impl.hpp: update"])
P("C42", "RPR frames round-trip",
  "An RPR node fed the bytes another node writes for a unicast message to it delivers the same source, command and payload.",
  "every source, destination, command and payload that fits",
  "All payloads.",
  [K+"rpr/interface_impl.hpp: writeMessage, update"])
P("C43", "RPR receiver is memory-safe",
  "On any byte stream the RPR receiver never writes outside its receive buffer.",
  "every byte stream",
  "Needs streams longer than the length counter.",
  [K+"rpr/interface_impl.hpp: update"])
P("C44", "RPR transmits every queued message",
  "Every message accepted into the transmit queue while the bus is busy is eventually written to the bus exactly once, in order.",
  "every history of sends and bus activity",
  "Loss appears only with more than one queued message.",
  [K+"rpr/interface_impl.hpp: sendMessage, update, writeMessage, popMessage"])
P("C45", "Lawicel text conversion round-trips",
  "Converting any valid CAN message to its Lawicel string and back gives the same identifier, frame type, length and data, and the parser rejects malformed strings without reading past the terminator.",
  "every CAN message with valid identifier and length; every input string",
  "All identifiers and payloads; all strings.",
  [D+"can/can_lawicel_formatter.cpp: convertToCanMessage, convertToString"])
P("C46", "Queue and stack adaptors",
  "BoundedQueue<T,N> is a bounded FIFO and BoundedStack<T,N> a bounded LIFO for every call history: push succeeds exactly when fewer than N elements are stored, get() is the oldest respectively newest element, pop() removes that element.",
  "every N in 1..65535, element type and every finite call history (get/pop only when not empty)",
  "Wrap-around positions depend on the whole history.",
  [C+"queue.hpp: BoundedQueue", C+"stack.hpp: BoundedStack", C+"deque_impl.hpp: append, prepend, removeFront, getFront"])
P("C47", "Saturated conversion",
  "Constructing or assigning a Saturated<T> from an integer of any other type gives the nearest value representable in T, and fits_any<T,U> represents every value of T and of U, for every pair of standard integer types.",
  "every pair of standard integer types and every value",
  "64 type pairs with up to 2^64 values; the intermediate type is computed by a digit-parity trick.",
  [M+"saturation/saturated.hpp: Saturated(const U&), operator=", M+"utils/integer_traits.hpp: fits_any"])
P("C48", "Saturating negation and absolute value",
  "Unary minus and absolute() of a Saturated<T> give the exact result clamped to the range of the result type.",
  "every value of every integer type",
  "Only the minimum of each signed type behaves differently.",
  [M+"saturation/saturated.hpp: operator-(), absolute"])
P("C49", "Lagrange interpolation is the interpolation polynomial",
  "For supporting points with pairwise distinct inputs, Lagrange::interpolate gives at every input the value of the unique polynomial of degree below the number of points through all points; in particular it is exact at every supporting point (exact arithmetic).",
  "every number of points, every field, every input",
  "Any number of points and any values.",
  [M+"interpolation/lagrange_impl.hpp: interpolate"])
P("C50", "SAB slave answers every request to it",
  "A waiting slave that receives a valid request to its address calls the first action registered for the command exactly once if the payload length fits and sends the responses of that action, or exactly one error: no action, wrong length, or no response; frames to other addresses and responses are never answered; the message is consumed.",
  "every action list, every frame",
  "All frames and action lists.",
  [K+"sab/slave_impl.hpp: update, send", K+"sab/slave.cpp: Response"])
P("C51", "SAB query round-trips through the slave",
  "A query sent by a master and answered with one response by the slave completes: with SUCCESS and the response payload if its length is the expected one, with a payload error for another length, and with the error code for an error response.",
  "every command, payload, action list and response of at most 32 bytes",
  "All payloads and actions end to end.",
  [K+"sab/master_impl.hpp: query, update", K+"sab/slave_impl.hpp: update"])
P("C52", "SAB query succeeds only on the answer of the queried slave",
  "A query is reported as successful only if the queried slave answered the queried command with an acknowledge of the expected length.",
  "every sequence of received bytes",
  "Needs late or foreign answers.",
  [K+"sab/master_impl.hpp: update"])
P("C53", "SAB2 rejects corrupted frames",
  "A frame in which one or two adjacent bytes were altered is not reported as a message.",
  "every frame, position and replacement",
  "All frames and errors.",
  [K+"sab2/interface_impl.hpp: update", K+"sab2/interface.cpp: crcUpdate"])
P("C54", "SAB2 reports only frames found on the wire",
  "A message becomes available only at a boundary byte, and only if the bytes since the previous boundary are the stuffed form of a frame with a valid checksum; address, flags, command and payload are those of that frame.",
  "every byte stream, with dropMessage() at any time",
  "All byte streams.",
  [K+"sab2/interface_impl.hpp: update"])
P("C55", "RPR nodes forward exactly the frames of others",
  "A node passes a frame on unchanged unless it sent the frame itself or is its only addressee; in those two cases it writes nothing.",
  "every frame of at most 255 content bytes, valid or not, and every node state",
  "All frames, addresses and states.",
  [K+"rpr/interface_impl.hpp: update"])
P("C56", "RPR ring delivers a message to its addressees once",
  "A broadcast travels through every other node of a ring, is delivered once by each, comes back unchanged to its sender and is removed there; a message to one node is delivered once there and goes no further.",
  "every number of nodes and every message that fits",
  "Rings of any size.",
  [K+"rpr/interface_impl.hpp: update"])
P("C57", "CAN message lengths and data constructors",
  "Setting the length of a CAN message picks the smallest CAN length that holds the requested bytes within the buffer and the matching data length code; building a message from a 64-bit number stores its low bytes most significant first.",
  "every buffer capacity, requested length, data length code and number",
  "All capacities times lengths times 2^64 numbers.",
  [A+"interface/can_message.hpp.in: setLength, setDataLengthCode, Message"])
P("C58", "CAN message comparison",
  "operator< is a strict weak order in which a smaller base identifier always comes first, also between standard and extended frames; operator== is an equivalence that looks only at header fields and used data bytes.",
  "all messages",
  "All pairs and triples of messages.",
  [A+"interface/can_message.hpp.in: operator <, operator =="])
P("C59", "Only higher priorities preempt a running task",
  "When schedule() is called while a task of modm::Scheduler is running (from an interrupt), only tasks of a strictly higher priority start before that task ends.",
  "every set of tasks, every nesting of ticks in runs",
  "Needs a tick during a run in which a higher and a lower task become due together.",
  [T+"scheduler/scheduler_impl.hpp: scheduleInterupt", T+"scheduler/scheduler.hpp: class documentation"])
P("C60", "Block allocator hands out separate memory",
  "However allocate, free and writes into held allocations follow each other, BlockAllocator never touches memory outside of its heap and never hangs; the allocations held lie inside of the heap, are as long as asked for, aligned, do not overlap, and keep what was written into them until they are freed.",
  "every block size, every number of blocks, every history",
  "All histories of requests; a wrong marker shows only after certain sequences of splits and merges.",
  [D+"storage/block_allocator_impl.hpp: initialize, allocate, free"])
P("C61", "Block allocator uses its heap fully",
  "allocate returns null only if every stretch of blocks long enough for the request meets a held allocation (free neighbours are always merged); after everything was freed the whole heap can be allocated again; getAvailableSize is the size of all blocks not taken by held allocations.",
  "every block size, every number of blocks, every history",
  "All histories of requests and releases.",
  [D+"storage/block_allocator_impl.hpp: allocate, free, getAvailableSize"])
P("C62", "XPCC header in the CAN identifier",
  "The CAN identifier of an XPCC packet is a valid 29 bit identifier from which the receiver gets back type, acknowledge flag, destination, source and packet identifier, and whether the frame is a fragment; the published filter masks select exactly by destination, source, packet identifier and event.",
  "every header",
  "2^27 headers.",
  [K+"xpcc/backend/can/connector.cpp: convertToIdentifier, convertToHeader", K+"xpcc/backend/can/connector.hpp: isFragment, XPCC_CAN_PACKET_*"])
P("C63", "XPCC packets survive reordering of their fragments",
  "A packet of up to 48 bytes is delivered once, with its header and all its bytes, when the last of its fragments arrives, whatever the order of the fragments and whatever other frames come between them.",
  "every payload, every order of fragments, every interleaving with other traffic, every history of the receiver",
  "Orders and interleavings are unbounded.",
  [K+"xpcc/backend/can/connector_impl.hpp: retrieveMessage"])
P("C64", "XPCC reception stays in its buffers",
  "No sequence of received CAN frames makes the connector write outside of the payload buffers it allocated.",
  "every sequence of frames",
  "Needs hostile or mixed up frames.",
  [K+"xpcc/backend/can/connector_impl.hpp: retrieveMessage"])
P("C65", "XPCC over CAN loses nothing",
  "Between two connectors on a bus that loses no frame, every packet sent is delivered exactly once and unchanged, in the order sent, after finitely many updates, however often the driver refuses a frame.",
  "every sequence of packets and every pattern of refusals",
  "Unbounded sequences; interplay of direct and queued sending.",
  [K+"xpcc/backend/can/connector_impl.hpp: sendPacket, sendWaitingMessages, retrieveMessage"])
P("C66", "AMNB messages arrive as sent",
  "Whatever message is sent (up to the documented 8192 bytes of payload), a receiver that wants it and has the memory ends with the same address, command, type and payload, and takes exactly the frame off the line, whatever it received before.",
  "every address, command, type and payload, every history of the receiver",
  "Lengths, escapes and left-over receiver state combine without bound.",
  [K+"amnb/message.hpp.in: Message, headerLength, dataLength, setValid", K+"amnb/interface.hpp: transmit, receiveHeader, receiveData"])
P("C67", "AMNB refuses corrupted messages",
  "A header with one wrong byte, or data of a large message with up to two adjacent wrong bytes, is refused.",
  "every message and every such corruption",
  "256^n messages times all corruptions.",
  [K+"amnb/message.hpp.in: isHeaderValid, isDataValid, crcHeader, crcData", K+"amnb/interface.hpp: receiveHeader, receiveData"])
P("C68", "AMNB reception stays in its memory",
  "No bytes on the line make the receiver access memory other than its message and the blocks it allocated.",
  "every sequence of bytes and turns, every pattern of failing allocations",
  "Hostile or mixed up traffic; needs the stale state of earlier messages.",
  [K+"amnb/message.hpp.in: allocate, deallocate, get, crcData", K+"amnb/node.hpp: receive"])
P("C69", "AMNB dispatch",
  "A broadcast is given to all listeners of its command in order and nobody else; a request for this node to the first action of its command or answered once with NoAction; other requests are ignored; any other message is taken as response exactly if a request with its address and command is waiting.",
  "every node, every message",
  "All lists of handlers and all messages.",
  [K+"amnb/node.hpp: handleRxMessage, receive"])
P("C70", "Bit-bang encoder input counts exactly",
  "An encoder that is sampled often enough (at most one step between two samples, pending steps within the delta type) is counted exactly: for any movement and any times of getDelta the returned values are those of an ideal counter with the prescaler, so no step is lost or counted twice.",
  "every movement, every prescaler that is a power of two, every width of the delta type",
  "Unbounded movements; wrap-around of the gray code and remainders of the prescaler in both directions.",
  [D+"encoder/bitbang_encoder_input_impl.hpp: getRaw, update, getDelta"])
P("C71", "Bit-bang encoder output",
  "The output reaches any setpoint, one step per tick, and a decoder of its two signals follows its position in both directions.",
  "every sequence of setpoints and ticks",
  "Unbounded movements in both directions.",
  [D+"encoder/bitbang_encoder_output_impl.hpp: update"])
P("C72", "Timer encoder delta",
  "getDelta returns the movement of the counter since the last call whenever that fits into the delta type, wherever the 16 bit counter wraps around.",
  "every counter value, every movement, every delta type",
  "2^32 pairs of counter values for each type.",
  [D+"encoder/encoder_input.hpp: getDelta"])
P("C73", "AS5047 command parity",
  "Every command word has an even number of ones and the 15 bits of the command.",
  "every command word",
  "A statement about all words; tests sample some.",
  [D+"encoder/as5047.hpp: as5047_setMsbToEvenParity"])
P("C74", "Calendar time",
  "For every time stamp of the documented range (and up to the year 2100) toDate gives the valid Gregorian date of that day, the time of the day and the day of the week; toUnixTimestamp of every valid date from 1970 to 2038 is its number of seconds; the two are inverse.",
  "every time stamp, every valid date",
  "2^31 seconds; leap years and month ends at irregular places; tests look at a few dates.",
  [U+"time/time.cpp: toDate, toUnixTimestamp"])
P("C75", "Day of the year",
  "toDate gives the day of the year, 0 to 365.",
  "every time stamp",
  "2^31 seconds.",
  [U+"time/time.cpp: toDate", U+"time/time.hpp: Date"])
P("C76", "Register flags",
  "set, reset, toggle and update change exactly the given bits of a register; all, any and none ask about exactly these bits.",
  "every width, every register content, every set of flags",
  "2^64 combinations for a 32 bit register.",
  [A+"interface/register.hpp: FlagsOperators, Flags"])
P("C77", "Register fields",
  "After setting a value or configuration, get returns it (a value cut to the width of the field), and no bit outside of the field changes; fields that do not overlap are independent.",
  "every width, position and mask, every register content and value",
  "All fields, registers and values.",
  [A+"interface/register.hpp: Configuration, Value"])
P("C78", "16 bit colours",
  "Packing keeps the upper 5, 6 and 5 bits of the components, expanding gives them back, expanding and packing is the identity, and addition and subtraction saturate in each component without touching the others.",
  "every colour, every pair of colours, both component types",
  "2^32 pairs of colours.",
  [U+"color/rgb565.hpp: Rgb565, operator+, operator-", U+"color/rgb.hpp: RgbT"])
P("C79", "HSV to RGB",
  "The conversion gives, in every component, the value of the usual HSV formula rounded down; the brightest component is the value and colours without saturation are grey.",
  "every hue, saturation and value, both component types",
  "2^24 colours for bytes and 2^48 for words.",
  [U+"color/rgb_impl.hpp: RgbT"])
P("C80", "Button debouncing",
  "The state of each button of a ButtonGroup starts with its first sample and then changes exactly when four consecutive samples differ from it, independently of the other buttons; getState tells it.",
  "every number of buttons, every history of samples",
  "All histories of samples; the counters are shared bit slices and tests press one button at a time.",
  [U+"button_group.hpp: update, getState"])
P("C81", "Button events",
  "isPressed (isReleased) is true exactly if one of the asked buttons was pressed (released) since it was last asked for, so that each press is reported exactly once.",
  "every history of updates and questions",
  "All interleavings of updates and questions about overlapping sets of buttons.",
  [U+"button_group.hpp: isPressed, isReleased"])
P("C82", "Button repetition",
  "A button held for the timeout repeats, and then again after each interval; a press is reported at most once as short or long press; each button has its own timing.",
  "every timeout and interval, every history",
  "Long histories with several buttons.",
  [U+"button_group.hpp: update, isRepeated, isPressedShort, isPressedLong"])
P("C83", "1-Wire search",
  "Repeated calls of searchNext after resetSearch return the ROM code of every device on the bus exactly once, then false. A code that is returned belongs to a device on the bus and has a correct check sum, whatever happened before.",
  "every set of devices with valid ROM codes, every earlier state",
  "2^56 ROM codes per device; the search is a walk in a binary tree with state between the calls.",
  ["src/modm/platform/one_wire/bitbang/bitbang_master_impl.hpp.in: performSearch, searchNext, resetSearch, crcUpdate"])
P("C84", "1-Wire search for a family",
  "After resetSearch(familyCode) the search returns all devices of this family and no other device.",
  "every set of devices, every family code",
  "All sets of devices.",
  ["src/modm/platform/one_wire/bitbang/bitbang_master_impl.hpp.in: resetSearch, performSearch"])
P("C85", "1-Wire: skipping a family",
  "After searchSkipCurrentFamily the next search returns the first device of the families that follow, or false if there is none.",
  "every set of devices, every position of the search",
  "All sets of devices and all sequences of calls.",
  ["src/modm/platform/one_wire/bitbang/bitbang_master_impl.hpp.in: searchSkipCurrentFamily, performSearch"])
P("C86", "1-Wire: verifying a device",
  "verifyDevice(rom) is true exactly if the device with this ROM code is on the bus, and leaves the search as it was.",
  "every set of devices, every state of the search",
  "All sets of devices and states.",
  ["src/modm/platform/one_wire/bitbang/bitbang_master_impl.hpp.in: verifyDevice", "src/modm/driver/temperature/ds18b20_impl.hpp: isAvailable"])
P("C87", "1-Wire bytes",
  "writeByte sends the lowest bit first, readByte returns the byte a device sends this way, and touchByte returns the bits of the device where a one is sent.",
  "every byte, every answer",
  "All pairs of bytes and answers.",
  ["src/modm/platform/one_wire/bitbang/bitbang_master_impl.hpp.in: writeByte, readByte, touchByte"])
P("C88", "Monochrome display buffer",
  "After any calls of setPixel and clearPixel, getPixel returns the part of the picture that is on the display; calls for pixels that are not on the display have no effect, and clearPixel(Point) clears the pixel.",
  "every size of the display, every sequence of calls, every buffer",
  "All sequences of calls with all 16 bit coordinates.",
  [U+"display/monochrome_graphic_display_vertical_impl.hpp: setPixel, clearPixel, getPixel", U+"display/monochrome_graphic_display_horizontal_impl.hpp", U+"display/graphic_display.hpp: clearPixel(Point)"])
P("C89", "Lines",
  "drawLine draws both end points, exactly one pixel for each step along the longer axis, each of them nearest to the straight line, and without gaps.",
  "all pairs of points whose distance fits into 16 bits",
  "2^64 pairs of points; error of Bresenham's algorithm accumulates.",
  [U+"display/graphic_display.cpp: drawLine"])
P("C90", "Rectangles, straight lines and images",
  "drawHorizontalLine and drawVerticalLine set the given number of pixels, drawRectangle the border of the rectangle, drawImageRaw the pixels of the image and only these.",
  "all positions and sizes within 16 bits, every image",
  "All positions, sizes and images.",
  [U+"display/graphic_display.cpp: drawHorizontalLine, drawVerticalLine, drawRectangle, drawImageRaw"])
P("C91", "Circles",
  "drawCircle ends; its pixels are within half a pixel of the circle, symmetric, and leave out no row and no column.",
  "every radius from 1 to 16383, every centre",
  "All radii; the error of the algorithm is a quadratic invariant.",
  [U+"display/graphic_display.cpp: drawCircle, drawCircle4"])
P("C92", "Faster drawing in a vertical buffer",
  "The lines and images of a monochrome vertical display set the same pixels as the general functions.",
  "every size of the display, every position and length",
  "Bit masks at all positions, on displays of all sizes.",
  [U+"display/monochrome_graphic_display_vertical_impl.hpp: drawHorizontalLine, drawVerticalLine, drawImageRaw"])
P("C93", "Filled shapes",
  "fillRectangle sets the pixels of the rectangle that are on the display; fillCircle fills the circle that drawCircle draws.",
  "every rectangle, every radius and centre",
  "All radii and positions.",
  [U+"display/graphic_display_fill.cpp: fillRectangle, fillCircle"])
P("C94", "Rounded rectangles",
  "drawRoundedRectangle draws the border of a rectangle of the given width and height whose corners are quarters of a circle.",
  "every rectangle and radius",
  "All sizes and radii.",
  [U+"display/graphic_display.cpp: drawRoundedRectangle"])
P("C95", "Text",
  "write draws the image of the character from the font and moves the cursor by its width and the space after it; the cursor moves by the result of getStringWidth for every string.",
  "every font, every string, every position of the cursor",
  "All strings and fonts.",
  [U+"display/graphic_display_text.cpp: write, getStringWidth"])
# ---------------------------------------------------------------- resumable functions
P("C96", "A resumable function behaves like a fiber",
  "Calling a resumable function or protothread again and again has the same visible effects, results and suspension points as running its body as an ordinary sequential program that pauses at each RF_YIELD, RF_WAIT_WHILE, RF_CALL and goes on there, through loops, branches and nested calls, whatever happens to the state between two calls. A completed function leaves the object as it was before the first call.",
  "every body written with the macros, every call graph that fits into the nesting levels, every sequence of changes to the state between calls",
  "Jumping into loops and branches via case labels depends on the whole control flow; a test follows a few paths of a few functions.",
  [T+"resumable/macros.hpp: RF_BEGIN, RF_END, RF_YIELD, RF_WAIT_WHILE, RF_CALL, RF_RETURN, RF_RETURN_CALL, RF_CALL_BLOCKING", T+"resumable/resumable.hpp: pushRf, popRf, setRf, stopRf", T+"resumable/nested_resumable.hpp.in: pushRf, popRf, setRf, stopRf"])
P("C97", "Nested resumable functions exclude each other",
  "While one function of a NestedResumable object is suspended, calling another function of the same object has no effect and returns WrongState, so that the suspended one is not disturbed.",
  "every pair of functions of an object, every suspension point, every change of the state in between",
  "The state numbers of all functions of a class must be distinct, which depends on their positions in the source files.",
  [T+"resumable/macros.hpp: RF_BEGIN, RF_INTERNAL_UNIQUE_COUNTER, RF_INTERNAL_END", T+"resumable/nested_resumable.hpp.in: nestingOkRf, pushRf"])
P("C98", "Nesting depth",
  "Resumable functions never access the state array outside of its bounds; calling a function beyond the declared nesting levels returns NestingError without effect.",
  "every program, every history of calls, including recursion and programs that call deeper than declared",
  "Call depth depends on the dynamic call graph.",
  [T+"resumable/nested_resumable.hpp.in: nestingOkRf, pushRf, isResumableRunning", T+"resumable/macros.hpp: RF_BEGIN"])
P("C99", "Stopping and querying resumable functions",
  "stopResumable and stopAllResumables stop exactly the named functions (of a nested object: those at the current level and below), after which they can be called anew; isResumableRunning, areAny-, areAllResumablesRunning and joinResumables report whether any, all or none of the given functions run; NestedResumable<1> does the same as the general class.",
  "every number of functions and levels, every state, every list of function identifiers",
  "All combinations of running functions and lists.",
  [T+"resumable/resumable.hpp: stopAllResumables, stopResumable, isResumableRunning, areAnyResumablesRunning, areAllResumablesRunning, joinResumables", T+"resumable/nested_resumable.hpp.in: stopResumable, isResumableRunning, getResumableDepth"])
P("C100", "Protothreads end and restart",
  "A protothread is running until run() has returned false; from then on run() has no effect and returns false, until restart(), after which it begins anew.",
  "every protothread, every history, every environment",
  "All control flows.",
  [T+"protothread/macros.hpp: PT_BEGIN, PT_END, PT_YIELD, PT_WAIT_WHILE, PT_CALL, PT_EXIT, PT_RESTART", T+"protothread/protothread.hpp: restart, stop, isRunning"])
P("C101", "Result of a resumable function",
  "RF_RETURN delivers its value as the result of the call; RF_END delivers the result 0, as documented.",
  "every function, every argument, every state",
  "Uninitialised memory often happens to be 0 in a test.",
  [T+"resumable/macros.hpp: RF_END, RF_RETURN", T+"resumable/resumable.hpp: ResumableResult"])
# ---------------------------------------------------------------- block devices
P("C102", "Block devices in memory and in a file",
  "read returns what was written to the addresses, write replaces the bytes of the request and no others; requests beyond the end of the device are refused without effect.",
  "every device size, every content, every address and size, every sequence of operations",
  "Addresses and sizes of 32 bits, including those whose sum overflows.",
  [D+"storage/block_device_heap_impl.hpp: BdHeap", D+"storage/block_device_file_impl.hpp: BdFile"])
P("C103", "Mirrored block devices",
  "After a successful write both devices of a mirror have the same content within the size of the mirror; a write that fails on one of the devices is reported.",
  "every pair of block devices, every request",
  "The failure of the second device must be provoked.",
  [D+"storage/block_device_mirror_impl.hpp: BdMirror"])
P("C104", "Serial flash",
  "The driver together with the chip works like an array of bytes: after initialize, write stores the bytes and read gives them back; nothing else is changed, however long the chip is busy with each operation.",
  "every flash size up to 4 GiB, every content, every address and size in the blocks, every busy time",
  "Real chips with timing; wrong sequences of commands are silently ignored by the chip.",
  [D+"storage/block_device_spiflash_impl.hpp: BdSpiFlash"])
P("C105", "Stack of flash dies",
  "A stack of dies works like one array of bytes, also for requests over the border of dies.",
  "every size and number of dies, every request, every state of the dies before initialize",
  "Many dies, all positions of the borders.",
  [D+"storage/block_device_spistack_flash_impl.hpp: BdSpiStackFlash"])
P("C106", "Stack of flash dies: isBusy",
  "isBusy of the stack tells whether any die is busy.",
  "every number of dies, every combination of busy dies, every schedule of the resumable functions",
  "Depends on how often the nested functions are suspended.",
  [D+"storage/block_device_spistack_flash_impl.hpp: isBusy"])
# ---------------------------------------------------------------- SPI and I2C masters
P("C107", "Bit-banged SPI",
  "A transfer exchanges the bytes of the master and of a device in the configured mode and bit order, each bit being stable around the edge at which the other side samples it; buffers are sent and filled in order; setDataMode, setDataOrder and initialize can be called at any time the bus is idle.",
  "all four modes, both bit orders, every byte and buffer, every device that follows the mode",
  "Needs a device that samples at the edges; a loopback test cannot see a wrong phase.",
  ["src/modm/platform/spi/bitbang/bitbang_spi_master_impl.hpp: initialize, setDataMode, setDataOrder, transferBlocking, transfer"])
P("C108", "Bit-banged I2C: a transaction is what was asked for",
  "start with a configured write, read or write-read transaction makes the devices on the bus see START, the address, the bytes of the buffer, a repeated START before a read, and STOP, and stores the bytes they send in the read buffer; a byte that is not acknowledged ends the transfer with STOP. The error state and the state of the transaction tell the outcome, and the bus is free afterwards.",
  "every behaviour of the devices at the level of bytes, every clock stretching of the devices, every buffer and length, every address",
  "Needs devices with all possible answers and timings.",
  ["src/modm/platform/i2c/bitbang/bitbang_i2c_master_impl.hpp: start, error, startCondition, stopCondition, sclSetAndWait, write, read, writeBit, readBit", A+"interface/i2c_transaction.hpp: I2cWriteReadTransaction, I2cWriteTransaction, I2cReadTransaction"])
P("C109", "Bit-banged I2C: failures of the bus",
  "Whatever happens on the wires, start returns, changes no memory but the read buffer, leaves the master free for the next transaction, both lines released, and the transaction not busy; the transaction has an error if and only if the master has one. A call that returns false has no effect.",
  "every sequence of levels read from the pins, every transaction object",
  "All failures at all moments.",
  ["src/modm/platform/i2c/bitbang/bitbang_i2c_master_impl.hpp: start, error, startCondition, stopCondition", A+"interface/i2c_transaction.hpp: attaching, detaching"])
P("C110", "I2C transaction objects can be used again",
  "A transaction object can be configured whenever it is not busy and can be started if and only if it is not busy; started again without being configured anew it does the same transfer again. A null buffer means that nothing is transferred.",
  "every object, every buffer and size, every outcome of the transfer before",
  "Depends on the history of the object.",
  [A+"interface/i2c_transaction.hpp: attaching, detaching, starting, writing, reading, configureWriteRead, configureWrite, configureRead"])
P("C111", "Bit-banged buses: the clock",
  "The delay used for a baud rate is half (SPI) or a quarter (I2C) of the clock period, rounded down to nanoseconds.",
  "every baud rate",
  "Overflow for slow clocks.",
  ["src/modm/platform/spi/bitbang/bitbang_spi_master_impl.hpp: initialize", "src/modm/platform/i2c/bitbang/bitbang_i2c_master_impl.hpp: initialize"])
P("C112", "SPI bus lock",
  "acquire and release form a lock with an owner and a depth: others are refused until the owner has released as often as acquired; the configuration handler of the owner is in force while it has the lock, and is called only when the lock is taken.",
  "every sequence of acquire and release of any number of devices, with and without handlers",
  "All interleavings of devices and depths.",
  [A+"interface/spi_lock.hpp: acquire, release"])
P("C113", "I2C devices that hold the bus can be reset",
  "After resetDevices no device pulls SDA any more, so that a START condition can be given, whatever the devices were doing when the master was reset.",
  "every state of the devices, every byte they send",
  "All states in which a transfer can be interrupted.",
  [A+"interface/i2c.hpp: resetDevices"])
P("C114", "Bit-banged I2C: timing",
  "During a transaction SCL is low and high for half a period at least, SDA is stable for half a period before SCL is released, and is changed while SCL is high for the START and STOP conditions only.",
  "every transaction, every behaviour of the devices",
  "Timing on the wires.",
  ["src/modm/platform/i2c/bitbang/bitbang_i2c_master_impl.hpp: writeBit, readBit, write, read, startCondition, stopCondition"])
G = M+"geometry/"
P("C115", "Vectors have a total order",
  "`==` of two-dimensional vectors is equality, and `<`, `<=`, `>`, `>=` are one total order, the lexicographic one, so that vectors can be sorted and used as keys.",
  "all vectors",
  "All pairs of vectors.",
  [G+"vector2_impl.hpp: operator ==, !=, <, <=, >, >="])
P("C116", "On which side of a line a point is",
  "`ccw(a, b, c)` is 1 if the way from a over b to c turns left or c is straight on behind b, -1 if it turns right or c is behind a, and 0 if c is between a and b.",
  "all points whose coordinates are at most half of the range of the type",
  "All triples of points; overflow.",
  [G+"vector2_impl.hpp: ccw"])
P("C117", "Intersections of line segments",
  "`intersects` of two line segments is true exactly if they have a point in common, and `getIntersections` finds a point exactly in this case.",
  "all segments whose coordinates are at most half of the range of the type",
  "All positions of four points, all degenerate ones included; rounding.",
  [G+"line_segment_2d_impl.hpp: intersects, getIntersections", G+"vector2_impl.hpp: ccw"])
P("C118", "Polygons",
  "Two polygons, or a polygon and a segment, intersect exactly if the outlines have a point in common; a point is inside of a convex polygon, given in either direction, exactly if it is in its convex hull.",
  "all polygons of any number of vertices",
  "All polygons.",
  [G+"polygon_2d_impl.hpp: intersects, isInside"])
P("C119", "Rays",
  "`Ray2D::intersects` is true exactly if the ray and the segment have a point in common; a polygon intersects a ray exactly if its outline does.",
  "all rays and segments",
  "All positions, touching included; overflow.",
  [G+"ray_2d_impl.hpp: intersects, ccw", G+"polygon_2d_impl.hpp: intersects"])
P("C120", "Intersections of lines and circles",
  "`getIntersections` of two lines, of a line and a circle, and of two circles appends as many points as the two figures have in common, and returns whether there are any.",
  "all lines and circles",
  "All positions, tangents included; overflow.",
  [G+"line_2d_impl.hpp: getIntersections", G+"circle_2d_impl.hpp: getIntersections"])
P("C121", "Products and lengths of integer vectors",
  "Dot and cross product of vectors of `int16_t` are exact; length and distance are the integer next to the true value; the operators `*` and `^` are the dot and the cross product.",
  "all vectors",
  "All pairs of vectors of 16 bit numbers.",
  [G+"vector2.cpp: dot, getLength, getLengthSquared", G+"vector2_impl.hpp: cross, getDistanceTo, operator *, operator ^"])
X = K+"xpcc/"
P("C122", "XPCC: acknowledges",
  "Every arrival of an action call that a component accepts is delivered and acknowledged once, also when it arrives again; calls which are refused and events are never acknowledged; every arrival of a response to a component on the board is acknowledged once. There are never more acknowledges than arrivals.",
  "every sequence of arrivals, commands and updates; every behaviour of the components",
  "All interleavings of traffic, including lost and duplicated packets.",
  [X+"dispatcher.cpp: updateOnceRx, handleActionCall, sendAcknowledge, handlePacket"])
P("C123", "XPCC: response callbacks",
  "A callback given to callAction is called at most once. What it is told is the timeout of this call or the answer to this call.",
  "every sequence of arrivals, commands and updates; every behaviour of the components",
  "All interleavings; duplicated and late responses.",
  [X+"dispatcher.cpp: handlePacket, sendMessageToInnerComponent, handleWaitingMessages", X+"dispatcher.hpp.in: Entry"])
P("C124", "XPCC: retransmissions",
  "A packet is sent at most three times for each order. Two transmissions of a packet ordered once are at least the acknowledge timeout apart.",
  "every sequence of arrivals, commands and updates; every behaviour of the components",
  "All interleavings and clocks.",
  [X+"dispatcher.cpp: handleWaitingMessages"])
P("C125", "XPCC: a call nobody answers",
  "A call to another board which nobody acknowledges is sent at once, twice more whenever the acknowledge timeout has passed, and then the callback is told of the timeout, exactly once. A call that is acknowledged but not answered times out after the response timeout.",
  "every other traffic, every sequence of updates at times which are not further apart than the 16 bit clock allows",
  "All sequences of times and of other traffic.",
  [X+"dispatcher.cpp: handleWaitingMessages", X+"dispatcher.hpp.in: acknowledgeTimeout, responseTimeout"])
P("C126", "XPCC: whatever is ordered is sent",
  "When update returns, everything that was ordered before has been sent, and action calls and events also if they were ordered meanwhile. Only the acknowledge of a packet, or the response to it, ends its retransmission.",
  "every sequence of arrivals, commands and updates; every behaviour of the components",
  "All interleavings; late and duplicated packets.",
  [X+"dispatcher.cpp: handlePacket, handleWaitingMessages, headerFits"])
P("C127", "XPCC: events",
  "When update returns, every event has been delivered as often as it arrived and was published here, and the events published here have been sent once each, in the order in which they were published.",
  "every sequence of arrivals, commands and updates; every behaviour of the components",
  "All interleavings; events published by handlers of events.",
  [X+"dispatcher.cpp: handleWaitingMessages, handleActionCall", X+"communicator.cpp: publishEvent"])
P("C128", "XPCC: update returns",
  "update returns, if the calls and events made by handlers are of lower rank than what is handled.",
  "every state, every arrival; every behaviour of the components that can be ranked",
  "Termination.",
  [X+"dispatcher.cpp: update, handleWaitingMessages"])
P("C129", "XPCC: nothing is made up",
  "Whatever is sent was ordered by a component or is the acknowledge of a packet that arrived; whatever is delivered arrived or was ordered on this board. Boards connected by a network that may lose, duplicate, delay and reorder packets: whatever is delivered or given to a callback on a board, a component of some board ordered.",
  "any number of boards, every execution; every behaviour of the components",
  "All distributed executions.",
  [X+"dispatcher.cpp: updateOnceRx, handlePacket, sendMessageToInnerComponent, handleWaitingMessages"])
P("C130", "Matrix: arithmetic",
  "Sums, differences, negatives, multiples, products and transposes of matrices, in place or not, are those of linear algebra; the zero and the identity matrix are; == and != compare the elements.",
  "every number of rows and columns, all matrices over every ring (exact arithmetic)",
  "All matrices of all sizes.",
  [M+"matrix_impl.hpp", M+"matrix.hpp"])
P("C131", "Matrix: rows, columns, submatrices",
  "subMatrix, getRow, getColumn, replace, removeRow and removeColumn give the elements they name and touch no others; addRow and addColumn give the matrix with one more row or column.",
  "all sizes, all places, all matrices",
  "All sizes and places; memory outside of the matrix.",
  [M+"matrix_impl.hpp: subMatrix, replace, getRow, getColumn, addRow, addColumn, removeRow, removeColumn"])
P("C132", "Matrix: determinant",
  "determinant is the determinant.",
  "every size, every matrix over every commutative ring (exact arithmetic)",
  "All matrices of all sizes.",
  [M+"matrix_impl.hpp: determinant"])
P("C133", "LU decomposition",
  "decompose gives a lower and a unit upper triangular matrix whose product is the matrix, with pivoting the matrix with the rows exchanged as the permutation says, or returns false.",
  "every size up to 128, every matrix over every ordered field (exact arithmetic)",
  "All matrices.",
  [M+"lu_decomposition_impl.hpp: decompose, decomposeRecur", M+"lu_decomposition.hpp"])
P("C134", "LU decomposition: solving",
  "solve gives the solution of the system of linear equations, or returns false if there is none.",
  "every size up to 128, all matrices and right hand sides over every ordered field (exact arithmetic)",
  "All systems.",
  [M+"lu_decomposition_impl.hpp: solve, solveLyEqualsB, solveUxEqualsY"])
P("C135", "Quaternions",
  "The operators are those of the quaternions and leave their operands alone; lengths, inverses and the order are as named; a quaternion of a unit axis and an angle, and the matrix of it, turn vectors by the angle about the axis.",
  "all quaternions, axes and angles (exact arithmetic)",
  "All quaternions and angles.",
  [G+"quaternion_impl.hpp"])
P("C136", "Vectors of any dimension",
  "The order is lexicographic; scalar and vector products, lengths, multiples and negatives are those of linear algebra, in place or not, and leave their operands alone.",
  "every dimension, all vectors (exact arithmetic)",
  "All vectors of all dimensions.",
  [G+"vector_impl.hpp", G+"vector3_impl.hpp"])
P("C137", "UART: written bytes are sent",
  "Bytes written with write are sent on the wire in order, each exactly once; none waits forever; write returns how many bytes it took and refuses one only when the queue is full.",
  "every queue size, every interleaving of the steps of the program, the interrupt handler and the hardware, every sequence of calls except writeBlocking and discardTransmitBuffer",
  "An interrupt can come between any two instructions.",
  ["src/modm/platform/uart/stm32/uart.cpp.in: write, MODM_ISR", "src/modm/platform/uart/stm32/uart_hal_impl.hpp.in"])
P("C138", "UART: isWriteFinished",
  "When isWriteFinished returns true or flushWriteBuffer returns, all bytes written have been sent; when it returns false, some have not.",
  "every interleaving of the steps of the program, the interrupt handler and the hardware",
  "An interrupt can come between the two tests.",
  ["src/modm/platform/uart/stm32/uart.cpp.in: isWriteFinished, flushWriteBuffer", A+"interface/uart.hpp"])
P("C139", "UART: writeBlocking",
  "Bytes written with writeBlocking are sent after those written before, none is lost, and all have been sent when it returns.",
  "every interleaving of the steps of the program, the interrupt handler and the hardware",
  "An interrupt can come between any two instructions.",
  ["src/modm/platform/uart/stm32/uart.cpp.in: writeBlocking"])
P("C140", "UART: discardTransmitBuffer",
  "discardTransmitBuffer empties the queue and the hardware buffer and returns how many bytes were discarded; the others are sent in order.",
  "every interleaving of the steps of the program, the interrupt handler and the hardware",
  "An interrupt can come between any two instructions.",
  ["src/modm/platform/uart/stm32/uart.cpp.in: discardTransmitBuffer, MODM_ISR"])
P("C141", "UART: reception",
  "read delivers the bytes received in order and without repetition, at most as many as asked for; none is lost except on overrun of the data register or the queue or by discardReceiveBuffer.",
  "every queue size, every interleaving of the steps of the program, the interrupt handler and the hardware, every sequence of calls",
  "A byte can arrive between any two instructions.",
  ["src/modm/platform/uart/stm32/uart.cpp.in: read, discardReceiveBuffer, clearError, MODM_ISR", "src/modm/platform/uart/stm32/uart_hal_impl.hpp.in: acknowledgeInterruptFlags"])
P("C142", "UART: sizes",
  "transmitBufferSize is the number of bytes waiting to be sent; after it no byte is refused until the room it left is used; after receiveBufferSize has returned n, read delivers n bytes.",
  "every queue size, every interleaving of the steps of the program, the interrupt handler and the hardware",
  "The queues change while their size is computed and between the calls.",
  ["src/modm/platform/uart/stm32/uart.cpp.in: transmitBufferSize, receiveBufferSize"])
P("C143", "CAN filters let pass what they are set to",
  "After a filter bank has been set, a frame passes it if and only if it is of the kind asked for (standard or extended, data or remote if this is compared) and its identifier has the bits of the identifier under the mask, or is in the list; it goes to the FIFO asked for; other banks are not changed.",
  "every bank, every state of the registers, all identifiers, masks and frames",
  "2^29 identifiers, times as many masks, times all frames.",
  ["src/modm/platform/can/stm32/can_filter.hpp.in", "src/modm/platform/can/stm32/can_filter.cpp.in"])
P("C144", "CAN filters: disabling and start bank",
  "disableFilter makes one bank let nothing pass; setStartFilterBankForCan2 sets the start bank; both leave the other banks alone and leave the initialisation mode.",
  "every bank, every state of the registers",
  "All states of the registers.",
  ["src/modm/platform/can/stm32/can_filter.cpp.in: disableFilter, setStartFilterBankForCan2"])
P("C145", "CAN: sending with a queue",
  "Every message for which sendMessage has returned true is sent exactly once, unchanged and in the order of the calls; it returns false only when the queue is full.",
  "every queue size, every interleaving of the steps of the program, the interrupt handler and the hardware, every sequence of calls",
  "An interrupt can come between any two instructions and a transmission can end at any moment.",
  ["src/modm/platform/can/stm32/can.cpp.in: sendMessage, sendMailbox, MODM_ISR(tx)"])
P("C146", "CAN: sending without a queue",
  "Every message for which sendMessage has returned true is sent exactly once, unchanged and in the order of the calls; it returns false only when three messages are waiting.",
  "every interleaving of the steps of the program and the hardware, every sequence of calls",
  "A transmission can end at any moment.",
  ["src/modm/platform/can/stm32/can.cpp.in: sendMessage, sendMailbox"])
P("C147", "CAN: isReadyToSend",
  "After isReadyToSend has returned true the next sendMessage returns true.",
  "every queue size or none, every interleaving of the steps of the program, the interrupt handler and the hardware",
  "Queue and mailboxes change between the calls.",
  ["src/modm/platform/can/stm32/can.cpp.in: isReadyToSend, sendMessage"])
P("C148", "CAN: receiving with a queue",
  "getMessage delivers the messages received in each FIFO unchanged, in order and each once; it returns false only if the queue is empty; a message is lost only if it comes when the FIFO or the queue is full, and then only one.",
  "every queue size, both overrun modes, every interleaving of the steps of the program, the interrupt handlers and the hardware, every sequence of calls",
  "A message can arrive and an interrupt can come between any two instructions.",
  ["src/modm/platform/can/stm32/can.cpp.in: getMessage, readMailbox, MODM_ISR(rx0), MODM_ISR(rx1)"])
P("C149", "CAN: receiving without a queue",
  "getMessage delivers the messages received in each FIFO unchanged, in order and each once.",
  "every interleaving of the steps of the program, the interrupt handlers and the hardware, every sequence of calls",
  "A message can arrive and an interrupt can come between any two instructions.",
  ["src/modm/platform/can/stm32/can.cpp.in: getMessage, readMailbox, MODM_ISR(rx0), MODM_ISR(rx1)"])
P("C150", "CAN: isMessageAvailable",
  "After isMessageAvailable has returned true the next getMessage delivers a message.",
  "every queue size or none, every interleaving of the steps of the program, the interrupt handlers and the hardware",
  "Queue and FIFOs change between the calls.",
  ["src/modm/platform/can/stm32/can.cpp.in: isMessageAvailable, getMessage"])
P("C151", "bxCAN: messages and mailboxes",
  "The frame in a transmit mailbox is the frame of the message (identifier, kind, length code, data), and a received message tells everything about the frame in the receive mailbox.",
  "every message (both identifier kinds, remote or not, every length), every content of the mailbox registers",
  "2^29 identifiers with data and flags; wrong shifts show on the bus only.",
  ["src/modm/platform/can/stm32/can.cpp.in: sendMailbox, readMailbox"])
P("C152", "FDCAN: messages in the message RAM",
  "The frame in a transmit buffer is the frame of the message, classic or FD, and a received message tells everything about the frame in the receive element, also when the interrupt handler reads several frames.",
  "every message up to 64 bytes, every content of an element, every list of elements read in one run of the handler",
  "Hardware needed, and the number of frames, flags and lengths.",
  ["src/modm/platform/can/stm32-fdcan/can.cpp.in: sendMsg, readMsg, interrupt handlers", "src/modm/platform/can/stm32-fdcan/message_ram.hpp"])
P("C153", "SocketCAN: messages and frames",
  "The frame passed to Linux is the frame of the message and the message returned tells everything about the frame from Linux.",
  "every message, every frame Linux can deliver",
  "Needs a CAN device; the flags share a word with the identifier.",
  ["src/modm/platform/can/socketcan/socketcan.cpp: sendMessage, getMessage"])
P("C154", "MCP2515: messages and registers",
  "The bytes written to a transmit buffer are the frame of the message, and getMessage tells everything about the frame in the first full buffer.",
  "every message, every content of the registers and the status",
  "Needs the chip; identifiers are spread over four registers.",
  ["src/modm/driver/can/mcp2515_impl.hpp: writeIdentifier, readIdentifier, sendMessage, getMessage"])
P("C155", "C_CAN: messages and message objects",
  "The message object passed to the driver in ROM is the frame of the message and the message read tells everything about the message object.",
  "every message, every message object",
  "Needs the chip with its ROM.",
  ["src/modm/platform/can/lpc/c_can.cpp.in: send and receive callbacks"])
P("C156", "MCP2515: buffers",
  "Every message taken by sendMessage is sent exactly once and in order; every frame which passed the filters is returned by getMessage exactly once and in order, unless there was no free buffer.",
  "every interleaving of the SPI commands with arriving frames and transmissions",
  "The interleaving with the bus cannot be controlled.",
  ["src/modm/driver/can/mcp2515_impl.hpp: getMessage, sendMessage, isReadyToSend, setFilter"])
P("C157", "FDCAN: sending",
  "Every message for which sendMessage returned true is sent exactly once with its own header and data, messages with the same identifier in the order given, and nothing else is sent; after the last call everything is sent.",
  "every interleaving of calls, interrupt handler and end of transmissions; every size of the transmit queue, also none",
  "The interleaving with the interrupt and the bus cannot be controlled.",
  ["src/modm/platform/can/stm32-fdcan/can.cpp.in: sendMessage, sendMsg, interrupt line 0", "src/modm/platform/can/common/can_shared_irqs.cpp.in"])
P("C158", "FDCAN: isReadyToSend and refused messages",
  "sendMessage returns false only if there is neither a free hardware buffer nor room in the queue, and after isReadyToSend has returned true the next sendMessage returns true.",
  "every interleaving of calls, interrupt handler and end of transmissions; every size of the transmit queue, also none",
  "The interleaving with the interrupt and the bus cannot be controlled.",
  ["src/modm/platform/can/stm32-fdcan/can.cpp.in: sendMessage, isReadyToSend"])
P("C159", "FDCAN: received messages are delivered unchanged and in order",
  "The messages delivered by getMessage from a receive FIFO are the first of those put into it, in order, each once and with its own header and data; the others are in the queue or in the FIFO; the handler never drops one because the queue is full.",
  "every interleaving of calls, interrupt handler and arriving messages; every size of the receive queue; FIFOs locked or overwritten on overrun",
  "A message that arrives between two accesses of the handler cannot be timed in a test.",
  ["src/modm/platform/can/stm32-fdcan/can.cpp.in: getMessage, readMsg, acknowledgeRxFifoRead, interrupt line 1"])
P("C160", "FDCAN: no received message is forgotten",
  "After isMessageAvailable has returned true, getMessage does not return false; receiving never stops for good, and when nobody runs, no interrupt is requested and the queue is empty, every message put into a FIFO has been delivered.",
  "every interleaving of calls, interrupt handler and arriving messages; every size of the receive queue",
  "A message that arrives between two accesses of the handler cannot be timed in a test.",
  ["src/modm/platform/can/stm32-fdcan/can.cpp.in: getMessage, isMessageAvailable, interrupt line 1"])
P("C161", "System clocks: a call of now is atomic",
  "Every call of Clock::now and PreciseClock::now returns what the clock shows at a moment during the call, and successive calls do not go backwards, although the handler may run and the timer start again between any two accesses.",
  "every interleaving of the timer, its interrupt and the accesses of the calls; every length of the period; the variable read at once or byte by byte; any run time",
  "The interrupt between two accesses cannot be timed in a test.",
  ["src/modm/platform/clock/systick/systick_timer.cpp.in: milli_clock::now, micro_clock::now, SysTick_Handler", "src/modm/platform/clock/avr/clock.cpp.in: milli_clock::now, micro_clock::now, TIMER0_COMPA"])
P("C162", "SysTick: the clocks are right",
  "If SysTickTimer::initialize compiles, the interrupt comes at the frequency asked for, and the difference of two results of PreciseClock::now is the time between the calls within two microseconds.",
  "every frequency of the processor, of the interrupt and every reference divider",
  "Only a few boards can be tried, and the constants differ for each frequency.",
  ["src/modm/platform/clock/systick/systick_timer.hpp.in: initialize", "src/modm/platform/clock/systick/systick_timer.cpp.in: micro_clock::now", "ext/aws/module.lb: frequency"])
P("C163", "AVR: the clocks are right",
  "The interrupt of timer 0 comes every millisecond, and between interrupts PreciseClock adds the time since the last one within five microseconds without going backwards.",
  "every frequency from 1 kHz to 65.5 MHz",
  "Only a few frequencies can be tried.",
  ["src/modm/platform/clock/avr/clock.cpp.in: enable, micro_clock::now", "src/modm/platform/clock/avr/module.lb: build"])
P("C164", "CAN bit timings of bxCAN, FDCAN and M_CAN",
  "If initialize compiles, the time of a bit set in the registers is right within the tolerance, the sample point is between 70 and 75 percent, and no other division of the bit gives a bit rate closer to that asked for.",
  "every clock below 2^31 Hz, every bit rate, every tolerance, every rounding of floats",
  "The unit test has 32 combinations; the registers are not tested.",
  ["src/modm/platform/can/common/can_bit_timings.hpp: calculateBestConfig, getPrescaler", "src/modm/platform/can/stm32/can.cpp.in: initializeWithPrescaler", "src/modm/platform/can/stm32-fdcan/can.cpp.in: initializeWithPrescaler"])
P("C165", "CAN bit timings of the MCP2515",
  "If initialize compiles, the bit rate set in CNF1 to CNF3 is the one asked for, with the sample point between 75 and 80 percent.",
  "every clock and every bit rate",
  "The unit test compares the parameters with themselves and not with what the chip does with them.",
  ["src/modm/driver/can/mcp2515_bit_timings.hpp", "src/modm/driver/can/mcp2515_impl.hpp: initializeWithPrescaler"])
P("C166", "delay_us with the cycle counter waits as long as asked",
  "For up to a second, delay_us returns not before the time asked for has passed and soon after, whatever the cycle counter shows at first and however long the loop is interrupted.",
  "every frequency up to the highest of the device, every number of microseconds up to a million, every value of the counter, all times at which it is looked at, every rounding of floats",
  "The unit test accepts 80 to 150 percent at one frequency, and the counter wraps once in half a minute.",
  ["src/modm/platform/core/cortex/delay.cpp.in: delay_us", "src/modm/platform/core/cortex/delay_impl.hpp.in: computeDelayMhz", "src/modm/platform/core/stm32/module.lb: us_shift"])
P("C167", "delay_ms and delays of durations wait as long as asked",
  "delay_ms waits for the whole number of milliseconds in delays of at most a second, and modm::delay of a duration of any unit waits for the duration given.",
  "every number of milliseconds; every duration, every unit",
  "A delay of weeks cannot be tested, nor all units.",
  ["src/modm/platform/core/cortex/delay_impl.hpp.in: delay_ms", "src/modm/architecture/interface/delay.hpp: delay"])
P("C168", "Loops that subtract: delay_ns, and delay_us of the Cortex-M0",
  "The loops end and last as long as asked, and at most one pass longer.",
  "every frequency, every number, every number of cycles of a pass up to eight",
  "The unit test accepts half of the time asked for, at one frequency.",
  ["src/modm/platform/core/cortex/delay_ns.cpp.in: delay_ns, delay_us", "src/modm/platform/core/cortex/delay_ns.hpp.in: computeDelayNsPerLoop"])
P("C169", "Delays of AVRs wait as long as asked",
  "delay_ns, delay_us and delay_ms return, and not before the time asked for has passed, for constants and for other numbers.",
  "every frequency that can be configured, every number",
  "There is no test of delays for AVRs.",
  ["src/modm/platform/core/avr/delay_impl.hpp.in", "src/modm/platform/core/avr/module.lb: shift"])
P("C170", "Streams: hexadecimal and binary output",
  "After hex or bin every integer, character and pointer is written with all its digits, which show its value, and the mode stays until it is set anew, by endl or flush too; function pointers show the address of the function.",
  "every value of every type, every sequence of items",
  "2^64 values and all sequences of manipulators cannot be tried.",
  ["src/modm/io/iostream.hpp.in: operator <<, writeIntegerMode", "src/modm/io/iostream.cpp: writeHex, writeBin, writePointer"])
P("C171", "Streams: decimal output",
  "Every integer is written as a decimal number with a sign that shows its value, however much the stream has written before.",
  "every value of every type, every state of the stream",
  "The failing states are the least value of a type and a stream that has written two thousand million digits.",
  ["src/modm/io/iostream_printf.cpp.in: writeInteger", "src/modm/io/iostream.hpp.in: output_gadget"])
P("C172", "Devices of streams: blocking and discarding",
  "With BlockIfFull a device gets all characters in order, with DiscardIfFull a part of them in order and the caller never waits.",
  "every string, every pattern in which the device is full",
  "The pattern depends on the speed of the device.",
  ["src/modm/io/iodevice_wrapper.hpp: write"])
P("C173", "Streams: input",
  "get of an array takes what is ready but never more than fits, and ends it; get of a character returns the next one, or eof only if there is none.",
  "every input, every size",
  "All inputs cannot be tried; a test with text does not see the byte 255.",
  ["src/modm/io/iostream.cpp: get", "src/modm/io/iostream.hpp.in: get"])
P("C174", "FDCAN: acceptance filters",
  "After initialize, whatever filters a program sets, changes and clears, every frame gets the fate the program asked for: the first filter set that matches (mask, pair or range) puts it into its queue or rejects it, and frames that match none are rejected; numbers of filters that do not exist are refused.",
  "every sequence of calls, every identifier, every previous contents of the message RAM",
  "Sequences of calls and 2^29 identifiers cannot be tried; on a fresh device the message RAM may happen to be empty.",
  ["src/modm/platform/can/stm32-fdcan/can.cpp.in: setStandardFilter, setStandardRangeFilter, setExtendedFilter, setExtendedRangeFilter, clearStandardFilters, clearExtendedFilters", "src/modm/platform/can/stm32-fdcan/message_ram.hpp"])
P("C175", "FDCAN: message RAM",
  "The driver and the controller agree on where the filters, receive queues, events and transmit buffers of every controller are, and none of them overlap.",
  "every controller, every element",
  "A wrong place shows only if the other element is in use at the same time.",
  ["src/modm/platform/can/stm32-fdcan/message_ram.hpp: FilterListStandard, FilterListExtended, RxFifo0, RxFifo1, TxEventFifo, TxFifo"])
P("C176", "MCP2515: acceptance filters",
  "With a table made by the macros the two buffers take exactly the frames their groups of filters ask for, and setFilter changes nothing else, the mode of the controller in particular.",
  "every table, every frame, every time the controller needs to change its mode",
  "2^29 identifiers with 2^29 masks cannot be tried.",
  ["src/modm/driver/can/mcp2515.hpp: MCP2515_FILTER, MCP2515_FILTER_EXTENDED, MCP2515_MASK, MCP2515_MASK_EXTENDED", "src/modm/driver/can/mcp2515_impl.hpp: setFilter"])
P("C177", "I2C EEPROM: write and read",
  "I2cEeprom writes every byte it is given to its address on the right device and nothing anywhere else, and reads return the contents, whatever accesses came before; also beyond 64 KiB, for values and for single bytes.",
  "every address of the driver, every address and length, every contents, every earlier use",
  "Contents, addresses and earlier accesses cannot be enumerated; a test board has one device, so that a write to another one is not noticed.",
  ["src/modm/driver/storage/i2c_eeprom_impl.hpp: write, read, configureWrite, configureRead, writing", "src/modm/driver/storage/i2c_eeprom.hpp: writeByte, write, read", "src/modm/architecture/interface/i2c_transaction.hpp: I2cWriteReadTransaction"])
P("C178", "AT24MAC402: three memories",
  "Whatever calls were made in between, the EEPROM, the MAC address and the unique number are read from (and the EEPROM is written to) the part of the chip they are in, of the chip chosen by setAddress.",
  "every sequence of calls, every address, every data",
  "Sequences of calls cannot be enumerated.",
  ["src/modm/driver/storage/at24mac402_impl.hpp: setAddress, readMac, readUniqueId, write, read"])
P("C179", "Animation: ramps",
  "FastRamp goes from begin to end: its values lie on the way, never go back and follow the line; a ramp from a value to itself stays there.",
  "every pair of values of 8, 16 and 32 bits, signed or not, every number of steps, AVR, Cortex-M and hosted",
  "2^32 pairs of values and 2^32 numbers of steps for 16 bits alone.",
  ["src/modm/ui/animation/interpolation.hpp: Computations, initialize, step, get"])
P("C180", "Animation: time and values",
  "An animation started for some milliseconds ends after them with the wanted value, is running until then, and shows the value for the time that has passed, however the calls of update are spread; the handler is called for every change and update tells of it.",
  "every value and time, every sequence of calls of update with less than 256 ms between them, every state of the clock",
  "Times of calls and values of the clock (with its overflow) cannot be enumerated.",
  ["src/modm/ui/animation/base_impl.hpp: setValue, animateTo, update", "src/modm/ui/animation/base.hpp"])
P("C181", "Animation: key frames",
  "Key frames are played in order, from the first to the last or up and down, as often as asked; each for its length, after which all animators have its values; isAnimating says whether the animation is running; stop leaves the last values.",
  "every number of frames, repeats and animators, every spread of updates",
  "Numbers of frames, repeats and times of updates cannot be enumerated.",
  ["src/modm/ui/animation/key_frame_impl.hpp: start, stop, cancel, update, checkRepeat, isAnimating"])
P("C182", "Animation: periods",
  "Pulse, Indicator and Strobe take the period that was set, with the duty cycle that was set.",
  "every period, duty cycle and fade time",
  "2^16 periods with 101 duty cycles and 2^32 fade times.",
  ["src/modm/ui/animation/pulse.hpp: setPeriod", "src/modm/ui/animation/indicator.hpp: setPeriod, setFadeTimes", "src/modm/ui/animation/strobe.hpp: setPeriod"])
P("C183", "inplace_any: lifetimes",
  "Whatever a program does with containers of any value, no object is used or destroyed when it does not live there, none is overwritten, and each object is destroyed exactly once; objects are aligned.",
  "every sequence of constructions, copies, moves, assignments, swaps, resets and destructions, of any number of containers of any capacities, with constructors that may throw, every type that is accepted",
  "Sequences of uses are unbounded; lost or doubled destructions and misaligned objects do not show in values.",
  ["src/modm/utils/inplace_any.hpp: all", "src/modm/utils/aligned_storage.hpp: aligned_storage_helper"])
P("C184", "inplace_any: values",
  "Containers hold what was assigned, copied, moved or swapped into them, as std::any does; has_value and any_cast tell of it.",
  "every sequence of uses of any number of containers",
  "Sequences of uses are unbounded.",
  ["src/modm/utils/inplace_any.hpp: copy_from, move_from, swap, any_cast, has_value"])
P("C185", "inplace_function",
  "Containers of functions call the function they were given, copied, moved or swapped; empty ones report it; each function object is destroyed exactly once and is never used when it does not live.",
  "every sequence of constructions, copies, moves, assignments (also to itself), swaps, calls and destructions, of any number of containers of any capacities and alignments, with constructors that may throw",
  "Sequences of uses are unbounded; lost or doubled destructions do not show in values.",
  ["src/modm/utils/inplace_function.hpp: all"])
P("C186", "AdcSampler: readouts",
  "A readout converts the mapped channels in their order, ends when each has its samples, and leaves in each element the mean of as many samples of its own channel as are asked for.",
  "every number of channels and samples, every resolution, every values, every state of the array before",
  "Numbers of channels and samples have 2^40 combinations, values of a readout many more.",
  ["src/modm/driver/adc/adc_sampler.hpp: totalSamples, SampleType, DataType", "src/modm/driver/adc/adc_sampler_impl.hpp: sampleAdc, startReadout"])
P("C187", "AdcSampler: readouts in progress",
  "startReadout returns false when a readout is in progress, and leaves it alone.",
  "every configuration, every moment of a readout",
  "Moments of interrupts cannot be chosen by a test.",
  ["src/modm/driver/adc/adc_sampler_impl.hpp: startReadout"])
P("C188", "ViewStack: views",
  "The view on top of the stack is the one that is updated and told of buttons; views that are removed are told so, deleted once, and no other view is; views are not used after that; the stack deallocates the views passed to it.",
  "every sequence of pushes, pops, removals, updates and buttons, whatever the functions of views do",
  "What views do when they are called is up to the user; a deleted view does not show in a test.",
  ["src/modm/ui/menu/view_stack.cpp: pop, update, shortButtonPress, ~ViewStack", "src/modm/ui/menu/view_stack.hpp: push, get", "src/modm/ui/gui/view_stack.cpp: all"])
P("C189", "ViewStack: display",
  "The display shows the view on top of the stack, and nothing of others.",
  "every sequence of pushes, pops, removals, updates and buttons, whatever the functions of views do",
  "What views do when they are called is up to the user.",
  ["src/modm/ui/menu/view_stack.cpp: update", "src/modm/ui/menu/view_stack.hpp: push"])
P("C190", "ScrollableText",
  "A text that fits is shown; one that does not is shown from its beginning until it scrolls; then each call of getText shows it displaced by one letter; when it pauses it shows what it showed last; a copy behaves alike.",
  "every text, every space, every sequence of calls",
  "Sequences of calls are unbounded.",
  ["src/modm/ui/menu/scrollable_text.cpp: all", "src/modm/ui/menu/scrollable_text.hpp: toogle, scroll, pause, needsScrolling"])
P("C191", "Menus: selection",
  "UP and DOWN select the entry before and after, and selectedEntryFunction is told; the selected entry is shown and marked and no other is marked; rows show entries in order (with the values of their variables); RIGHT calls what belongs to the selected entry; OK changes the value of the selected choice; LEFT removes the menu.",
  "every number of entries, every size of the display, every sequence of buttons and drawings",
  "Sequences of buttons are unbounded.",
  ["src/modm/ui/menu/standard_menu.cpp: shortButtonPress, draw, addEntry", "src/modm/ui/menu/choice_menu.cpp: shortButtonPress, draw, addEntry, initialise"])
P("C192", "Menus: texts that scroll",
  "The selected entry scrolls by a letter each time the menu is drawn if it does not fit, starting with its beginning; the others show their beginning.",
  "every entries, every size of the display, every sequence of buttons and drawings",
  "Sequences of buttons are unbounded.",
  ["src/modm/ui/menu/standard_menu.cpp: shortButtonPress, draw", "src/modm/ui/menu/choice_menu.cpp: shortButtonPress, draw, initialise"])
P("C193", "MCP23x17: directions, pull-ups, polarities, reading",
  "After initialize() every pin has the direction, the pull-up and the polarity it was given last, whatever was done to other pins; getDirection tells it; readInput followed by read(pin) tells the level of the wire, inverted if asked for; an acknowledged call about directions makes up for those whose transfers failed; if initialize() returns true the driver knows the state of the chip.",
  "every state of the chip before initialize, every sequence of calls on any sets of pins, every fate of transfers, every levels of the wires",
  "Sequences of calls and sets of pins are too many; failing transfers are hard to provoke.",
  ["src/modm/driver/gpio/mcp23x17_impl.hpp: initialize, setOutput, setInput, setPullUp, resetPullUp, setInvertInput, resetInvertInput", "src/modm/driver/gpio/mcp23x17.hpp: readInput, read, getDirection, Memory", "src/modm/driver/gpio/mcp23_transport_impl.hpp: write, write16, read"])
P("C194", "MCP23x17: levels",
  "An output is driven at the level it was given last, which isSet tells; toggle inverts the level of the wire.",
  "every state of the chip before initialize, every sequence of calls on any sets of pins, every fate of transfers",
  "Sequences of calls are unbounded.",
  ["src/modm/driver/gpio/mcp23x17_impl.hpp: set, reset, toggle, setInput", "src/modm/driver/gpio/mcp23x17.hpp: isSet"])
P("C195", "PCA9535: directions and levels",
  "A pin is driven only if a call made it an output, and at the level it was given last; getDirection and isSet tell what the pin does; calls affect only pins they name.",
  "every state of chip and driver at first, every sequence of calls on any sets of pins, every fate of transfers",
  "Sequences of calls are unbounded; the state of the chip after power-on is not in the code.",
  ["src/modm/driver/gpio/pca9535_impl.hpp: all", "src/modm/driver/gpio/pca9535.hpp: Memory, isSet, getDirection"])
P("C196", "PCA8574: inputs and outputs",
  "The chip pulls exactly those pins low which are outputs and were given a low level last; inputs are released, so that they can be read.",
  "every sequence of calls on any sets of pins from power-on",
  "Sequences of calls are unbounded.",
  ["src/modm/driver/gpio/pca8574_impl.hpp: all", "src/modm/driver/gpio/pca8574.hpp: setOutput, isSet"])
P("C197", "GpioExpanderPort",
  "write(data) puts bit i of data to the i-th pin of the port (from the other end if reversed) and leaves all other outputs; read() gives the pins of the port in the same order and zeros else.",
  "every start, every width, every data, every outputs and inputs, both orders, expanders of 8 and 16 pins",
  "The starts, widths and data are too many.",
  ["src/modm/architecture/interface/gpio_expander.hpp: GpioExpanderPort::write, read, dataMask, portMask, StartIndexReversed"])
P("C198", "GpioExpanderPin::setOutput(bool)",
  "setOutput(value) configures the pin as an output and sets it high or low, as with any other pin.",
  "every state the expander can reach",
  "Sequences of calls are unbounded.",
  ["src/modm/architecture/interface/gpio_expander.hpp: GpioExpanderPin::setOutput", "src/modm/architecture/interface/gpio.hpp: GpioOutput::setOutput"])
P("C199", "STM32: sets of pins",
  "A call for a GpioSet (setOutput, setInput, configure, set, reset, toggle, setAnalogInput) does the same to each of its pins, on whatever ports they are, with set and reset exchanged for inverted pins, and changes no other pin; getDirection tells the mode.",
  "every set of pins, every sequence of calls for any sets, every contents of the registers, every pin",
  "The sets of pins are too many, and the registers exist on hardware only.",
  ["src/modm/platform/gpio/stm32/set.hpp.in: masks, inverteds, mask2, setOutput, configure, setInput, setAnalogInput, set, reset, toggle", "src/modm/platform/gpio/stm32/static.hpp.in: getDirection", "src/modm/platform/gpio/common/inverted.hpp: isInverted"])
P("C200", "Ports of pins",
  "GpioPort and SoftwareGpioPort: write(data) gives bit i of data to the i-th pin (from the other end if reversed, in the given order for SoftwareGpioPort), inverted for inverted pins, and changes nothing else; read() and isSet() gather the bits in the same order with zeros above.",
  "every start, width and order, every list of distinct pins, every data, every contents of the registers, STM32 and AVR",
  "The ports are too many, and the registers exist on hardware only.",
  ["src/modm/platform/gpio/stm32/port.hpp.in: isSet, read, write", "src/modm/platform/gpio/stm32/software_port.hpp.in: isSet, read, write, shift_mask", "src/modm/platform/gpio/at90_tiny_mega/port.hpp.in: isSet, read, write", "src/modm/platform/gpio/at90_tiny_mega/software_port.hpp.in: isSet, read, write", "src/modm/platform/gpio/common/port_shim.hpp.in: GpioSetShim"])
P("C201", "STM32F1: sets of pins",
  "On the F1 a call for a GpioSet configures each of its pins in CRL or CRH as documented, sets the pull-up or pull-down with ODR, and changes no other pin; setAlternateFunction changes outputs of this pin only.",
  "every set of pins, every call, every contents of the registers, every pin",
  "The sets of pins are too many, and the registers exist on hardware only.",
  ["src/modm/platform/gpio/stm32/set.hpp.in: mask4, crl, crh, configure, setAnalogInput, set, reset", "src/modm/platform/gpio/stm32/static.hpp.in: setAlternateFunction"])
P("C202", "STM32F1: getDirection",
  "getDirection tells whether the pin is an input, an output or something else.",
  "every contents of the registers, every pin",
  "It reads registers of the hardware.",
  ["src/modm/platform/gpio/stm32/static.hpp.in: getDirection"])
P("C203", "STM32: open-drain outputs stay open-drain",
  "An output configured as open-drain stays open-drain when it is set, reset or made an output again.",
  "every set of pins, every contents of the registers",
  "Families differ, and the registers exist on hardware only.",
  ["src/modm/platform/gpio/stm32/set.hpp.in: setOutput, configure, set, reset"])
P("C204", "AVR: sets of pins",
  "A call for a GpioSet does the same to each of its pins, with set and reset exchanged for inverted pins, and changes no other pin; getDirection tells the direction.",
  "every set of pins, every sequence of calls for any sets, every contents of the registers, with and without PUE",
  "The sets of pins are too many, and the registers exist on hardware only.",
  ["src/modm/platform/gpio/at90_tiny_mega/set.hpp.in: all", "src/modm/platform/gpio/at90_tiny_mega/static.hpp.in: getDirection"])
P("C205", "Pins: interrupts",
  "What an interrupt does to other pins during a call for a set of pins stays done.",
  "every interrupt, every set of pins, every contents of the registers",
  "Interrupts in the middle of a statement cannot be placed by tests.",
  ["src/modm/platform/gpio/stm32/set.hpp.in: toggle, setOutput", "src/modm/platform/gpio/at90_tiny_mega/set.hpp.in: set"])
P("C206", "STM32 timers: periods",
  "setPeriod(duration) gives the timer update events at equal distances that are at most the duration and shorter by less than one tick of the prescaled clock (exactly the duration in cycles on 32-bit timers), and returns the overflow; the prescaler is not larger than needed.",
  "every duration of at least two cycles, every clock, every previous contents of the registers, every number of cycles of the hardware counter",
  "Durations and clocks are too many, and the counter exists on hardware only.",
  ["src/modm/platform/timer/stm32/general_purpose.hpp.in: setPeriod, setPrescaler, getPrescaler, setOverflow", "src/modm/platform/timer/stm32/basic.hpp.in: setPeriod", "src/modm/platform/timer/stm32/advanced.hpp.in: setPeriod"])
P("C207", "STM32 timers: output channels",
  "configureOutputChannel (all overloads) makes the channel an output with the given mode, preload, compare value, enabled outputs and polarities, and changes nothing of any other channel.",
  "every channel of general purpose, advanced and extended timers, every mode and setting, every previous contents of the registers",
  "Combinations of previous and new settings are too many, and the registers exist on hardware only.",
  ["src/modm/platform/timer/stm32/general_purpose.cpp.in: configureOutputChannel", "src/modm/platform/timer/stm32/advanced.cpp.in: configureOutputChannel", "src/modm/platform/timer/stm32/general_purpose_base.hpp.in: OutputCompareMode"])
P("C208", "STM32 timers: switching the mode of a channel",
  "setInvertedPwm, setNormalPwm, forceInactive, forceActive and configureOutputChannel(channel, modeOutputPorts) give the channel the mode from any state and leave its preload and compare value and all other channels as they are; the last one sets the outputs to the given four bits, the others leave them.",
  "every channel, every previous contents of the registers",
  "Previous contents are too many, and the registers exist on hardware only.",
  ["src/modm/platform/timer/stm32/general_purpose.hpp.in: setInvertedPwm, setNormalPwm, forceInactive, forceActive", "src/modm/platform/timer/stm32/advanced.cpp.in: configureOutputChannel(channel, modeOutputPorts)"])
P("C209", "STM32 timers: input channels",
  "configureInputChannel selects the given input, prescaler, filter and edge and enables the channel, and changes nothing of other channels; configureInputChannel(channel, filter) changes the filter only; isChannelConfiguredAsInput tells inputs from outputs.",
  "every channel and setting, every previous contents of the registers",
  "Combinations are too many, and the registers exist on hardware only.",
  ["src/modm/platform/timer/stm32/general_purpose.cpp.in: configureInputChannel, isChannelConfiguredAsInput", "src/modm/platform/timer/stm32/advanced.cpp.in: configureInputChannel"])
P("C210", "STM32 timers: compare values",
  "getCompareValue(channel) returns what setCompareValue(channel) has set, and setting one channel leaves the others.",
  "every channel the timer has, every value",
  "The registers exist on hardware only.",
  ["src/modm/platform/timer/stm32/general_purpose.hpp.in: setCompareValue, getCompareValue", "src/modm/platform/timer/stm32/advanced.hpp.in: setCompareValue, getCompareValue"])
P("C211", "STM32 timers: dead time",
  "setDeadTime(resolution, n) sets the dead time to the beginning of the range plus n steps, as the names of the ranges say, and leaves the other bits of the register.",
  "every range, every n in it, every previous contents of the register",
  "The coding exists on hardware only.",
  ["src/modm/platform/timer/stm32/advanced.hpp.in: setDeadTime", "src/modm/platform/timer/stm32/general_purpose.hpp.in: setDeadTime", "src/modm/platform/timer/stm32/general_purpose_base.hpp.in: DeadTimeResolution"])
P("C212", "STM32 timers: idle states",
  "setOutputIdleState sets the two idle states of the channel to the given ones, and changes nothing else.",
  "every channel, every pair of states, every previous contents of CR2",
  "The register exists on hardware only.",
  ["src/modm/platform/timer/stm32/advanced.hpp.in: setOutputIdleState", "src/modm/platform/timer/stm32/advanced_base.hpp.in: OutputIdleState"])
P("C213", "STM32 timers: acknowledged flags",
  "acknowledgeInterruptFlags clears the given flags and no other, also not those that the hardware has set in the meantime.",
  "every set of flags, every contents of the status register at the time of the write",
  "The hardware sets flags at any time.",
  ["src/modm/platform/timer/stm32/general_purpose.hpp.in: acknowledgeInterruptFlags", "src/modm/platform/timer/stm32/advanced.hpp.in: acknowledgeInterruptFlags", "src/modm/platform/timer/stm32/basic.hpp.in: acknowledgeInterruptFlags"])
P("C214", "MCP7941x: date and time",
  "setDateTime writes date and time to the clock and starts its oscillator, getDateTime returns them; without acknowledgement they return false and no date, and a write without acknowledgement of its first transaction changes nothing.",
  "every date and time, every previous contents of the clock",
  "There are 10^9 dates and times, and the chip exists on hardware only.",
  ["src/modm/driver/rtc/mcp7941x_impl.hpp: setDateTime, getDateTime", "src/modm/driver/rtc/mcp7941x.hpp: encodeBcd, decodeBcd"])
P("C215", "MCP7941x: running oscillator",
  "oscillatorRunning returns whether the oscillator runs.",
  "every contents of the clock",
  "A stopped oscillator exists on hardware only.",
  ["src/modm/driver/rtc/mcp7941x_impl.hpp: oscillatorRunning"])
P("C216", "DS1302: writing",
  "write puts the byte into the register of the address unless the chip is write protected, leaves the other registers, and leaves the bus as it was; writeProtect allows or forbids writing in any state; enableOscillator starts the oscillator and leaves the time as it is.",
  "every contents of the registers, every register and byte, every level left on the line",
  "Contents are too many, and the chip exists on hardware only.",
  ["src/modm/driver/rtc/ds1302_impl.hpp: initialize, writeByte, write", "src/modm/driver/rtc/ds1302.hpp: writeProtect, enableOscillator"])
P("C217", "DS1302: reading all registers",
  "readRtc gets the eight clock registers of the chip bit by bit, and changes nothing.",
  "every contents of the registers (2^64)",
  "Contents are too many, and the chip exists on hardware only.",
  ["src/modm/driver/rtc/ds1302_impl.hpp: readRtc"])
P("C218", "DS1302: reading one register",
  "read(addr) returns the register of the address, and changes nothing.",
  "every register and contents",
  "The edges of the clock at which the chip puts out bits exist on hardware only.",
  ["src/modm/driver/rtc/ds1302_impl.hpp: read"])
P("C219", "DS1302: date and time",
  "The getters of Data return the time, date, month, year and write protection that the registers contain, in the 12 h and 24 h formats.",
  "every date and time",
  "Dates and times are too many.",
  ["src/modm/driver/rtc/ds1302.hpp: Data"])
P("C220", "I2C master of AVRs: transactions",
  "After start, the interrupts do on the bus what an I2cWriteReadTransaction, I2cWriteTransaction or I2cReadTransaction was configured for: START, the address, all bytes of the write buffer, a repeated START if something is to be read, the reads with all but the last byte acknowledged, STOP; the bytes are in the read buffer and nothing else is changed; when a byte is not acknowledged, the transfer ends there with STOP, and master and object know it.",
  "every device, contents of memory, address, number of bytes",
  "The module TWI and the devices exist on hardware only, buffers and devices are too many.",
  ["src/modm/platform/i2c/at90_tiny_mega/i2c_master.cpp.in: MODM_ISR(TWI), start", "src/modm/architecture/interface/i2c_transaction.hpp: I2cWriteReadTransaction, I2cWriteTransaction, I2cReadTransaction"])
P("C221", "I2C master of AVRs: transactions of any object",
  "After start, the interrupts do on the bus what the functions starting, writing and reading of the object say, in any order that the types allow, with buffers of any length.",
  "every object, every device, any number of operations",
  "Objects of users are not known to tests.",
  ["src/modm/platform/i2c/at90_tiny_mega/i2c_master.cpp.in: MODM_ISR(TWI), start", "src/modm/architecture/interface/i2c_transaction.hpp: I2cTransaction"])
P("C222", "I2C master of AVRs: end of a transaction",
  "Whatever the bus does, a transaction goes on and there is another interrupt, or it is over, its object is told, and there is none; lost arbitration ends it at once. start has no effect when it returns false. After reset() the master does nothing more with the transaction.",
  "every state, status and object",
  "Lost arbitration and bus errors exist on hardware only.",
  ["src/modm/platform/i2c/at90_tiny_mega/i2c_master.cpp.in: MODM_ISR(TWI), start, reset"])
P("C223", "I2C master of STM32: transactions",
  "After start, the interrupts do on the bus what an I2cWriteReadTransaction, I2cWriteTransaction or I2cReadTransaction was configured for, however late they are served: START, the address, all bytes of the write buffer, a repeated START if something is to be read, the reads with all but the last byte acknowledged, STOP; the bytes are in the read buffer and nothing else is changed; when a byte is not acknowledged, the transfer ends there with STOP, and master and object know which.",
  "every device, contents of memory, address, number of bytes, delay of interrupts",
  "The peripheral and the devices exist on hardware only; the delay of an interrupt cannot be chosen in a test.",
  ["src/modm/platform/i2c/stm32/i2c_master.cpp.in: I2C_EV, I2C_ER, start, callStarting", "src/modm/architecture/interface/i2c_transaction.hpp: I2cWriteReadTransaction, I2cWriteTransaction, I2cReadTransaction"])
P("C224", "I2C master of STM32: transactions of any object",
  "After start, the interrupts do on the bus what the functions starting, writing and reading of the object say, in any order that the types allow, with buffers of any length.",
  "every object, every device, any number of operations, any delay of interrupts",
  "Objects of users are not known to tests.",
  ["src/modm/platform/i2c/stm32/i2c_master.cpp.in: I2C_EV, I2C_ER, start", "src/modm/architecture/interface/i2c_transaction.hpp: I2cTransaction"])
P("C225", "I2C master of STM32: queue",
  "Objects given to start while the bus is occupied are carried out later, in the order of the calls, each with its own configuration handler; each is detached exactly once, and a failure of one of them does not affect the others. If the queue is full, start returns false and has no effect.",
  "every number of objects, every outcome of their transactions",
  "Sequences of transactions and failures are too many.",
  ["src/modm/platform/i2c/stm32/i2c_master.cpp.in: start, callNextTransaction, I2C_EV, I2C_ER"])
P("C226", "I2C master of STM32: reset",
  "reset() detaches all objects with an error, and the master does nothing more with them; start has no effect on the object when it returns false.",
  "every state and queue",
  "Interrupts after reset exist on hardware only.",
  ["src/modm/platform/i2c/stm32/i2c_master.cpp.in: reset, start, I2C_EV"])
P("C227", "I2C master of newer STM32: transactions",
  "After start, the interrupts do on the bus what an I2cWriteReadTransaction, I2cWriteTransaction or I2cReadTransaction was configured for, whenever they are served: START, the address, all bytes of the write buffer (any number, in pieces of 255), a repeated START if something is to be read, the reads with all but the last byte acknowledged, STOP; the bytes are in the read buffer and nothing else is changed; when a byte is not acknowledged, the transfer ends there with STOP, and master and object know which.",
  "every device, contents of memory, address, number of bytes, delay of interrupts, also while they are being served",
  "The peripheral and the devices exist on hardware only; the moment of an interrupt cannot be chosen in a test.",
  ["src/modm/platform/i2c/stm32-extended/i2c_master.cpp.in: I2C_EV, start, callStarting, callWriteOperation, callReadOperation", "src/modm/architecture/interface/i2c_transaction.hpp: I2cWriteReadTransaction, I2cWriteTransaction, I2cReadTransaction"])
P("C228", "I2C master of newer STM32: transactions of any object",
  "After start, the interrupts do on the bus what the functions starting, writing and reading of the object say, in any order that the types allow, with buffers of any length.",
  "every object, every device, any number of operations, any delay of interrupts",
  "Objects of users are not known to tests.",
  ["src/modm/platform/i2c/stm32-extended/i2c_master.cpp.in: I2C_EV, start, callStarting", "src/modm/architecture/interface/i2c_transaction.hpp: I2cTransaction"])
P("C229", "I2C master of newer STM32: queue",
  "Objects given to start while the bus is occupied are carried out later, in the order of the calls, each with its own configuration handler; each is detached exactly once, and a failure of one of them does not affect the others. If the queue is full, start returns false and has no effect.",
  "every number of objects, every outcome of their transactions",
  "Sequences of transactions and failures are too many.",
  ["src/modm/platform/i2c/stm32-extended/i2c_master.cpp.in: start, callNextTransaction, I2C_EV"])
P("C230", "I2C master of newer STM32: reset and start",
  "reset() detaches all objects with an error, and the master does nothing more with them; start refuses a null pointer, and has no effect on the object when it returns false.",
  "every state and queue",
  "Interrupts after reset exist on hardware only.",
  ["src/modm/platform/i2c/stm32-extended/i2c_master.cpp.in: reset, start, I2C_EV"])
P("C231", "Flash of STM32F4: sectors",
  "getPage (getSector) gives the sector that contains an offset, getOffset (getAddr) the begin of a sector, getSize its length, as the reference manual describes the memory: banks of four sectors of 16 KiB, one of 64 KiB and seven of 128 KiB.",
  "every offset and every sector",
  "Tests would be written from the same table as the code; the code has no tests.",
  ["src/modm/platform/flash/stm32/flash.cpp.in: getPage, getOffset, getSize", "src/modm/platform/flash/stm32/flash.hpp.in: getSector, getAddr"])
P("C232", "Flash of STM32 F1, G0, G4: pages",
  "Every offset of the memory lies in the page that getPage names, between getOffset of this page and getOffset + getSize, and in no other page.",
  "every page size, every offset of the memory of a device",
  "Depends on the size of the memory of the device.",
  ["src/modm/platform/flash/stm32/flash.cpp.in: getPage, getOffset, getSize", "src/modm/platform/flash/stm32/module.lb: build"])
P("C233", "Flash of STM32: erase",
  "erase(i) sets all bytes of sector or page i to 0xFF and no other byte, returns 0 exactly if it did so, and leaves the controller ready for the next operation; so erase(getPage(o)) erases the byte at o.",
  "every sector or page, every content of the memory, duration of the operation and error of the controller",
  "Needs the flash controller, and errors of it.",
  ["src/modm/platform/flash/stm32/flash.cpp.in: erase", "src/modm/platform/flash/stm32/flash.hpp.in: isBusy"])
P("C234", "Flash of STM32: program",
  "program(addr, data) writes the bytes of data at addr, least significant first, if the cells are erased, and no others; it returns 0 exactly if it did so.",
  "every address, word, width, duration and error of the controller",
  "Needs the flash controller, and errors of it.",
  ["src/modm/platform/flash/stm32/flash.cpp.in: program", "src/modm/platform/flash/stm32/flash.hpp.in: program"])
P("C235", "Flash of STM32: updates",
  "After unlock, erasing a sector or page and programming any number of words into it one after the other leaves exactly these words there, every other sector as it was, and all results are 0; a locked memory is reported.",
  "every number of words, every old content",
  "Needs the flash controller.",
  ["src/modm/platform/flash/stm32/flash.cpp.in: unlock, erase, program", "examples/nucleo_f429zi/usbfatfs/main.cpp: update"])
P("C236", "Fault report kept over a reset",
  "After a fault and a reset FaultReporter::hasReport() is true and iterating over the reporter yields exactly the bytes that were dumped, whatever the sizes of the heap regions and of the report; memory outside of the heap is not written; what does not fit is discarded; after clear() there is no report.",
  "every table of regions, every sequence of writes",
  "Needs a crash, a reset, and reports of all sizes around the ends of the regions.",
  ["src/modm/platform/fault/crashcatcher/fault_storage.cpp: openWrite, write, closeWrite, openRead, closeRead, Iterator", "src/modm/platform/fault/crashcatcher/crashcatcher_dump.cpp: dump", "src/modm/platform/fault/crashcatcher/fault.hpp: begin, end"])
P("C237", "Heap table",
  "Iterating over HeapTable yields every region of the heap with its begin, end and size; while a fault report is kept, all of it but the report.",
  "every table of regions, every report",
  "Depends on the linker script and a report.",
  ["src/modm/platform/core/cortex/heap_table.cpp.in: begin, operator++, operator*"])
P("C238", "Largest piece of the heap",
  "HeapTable::find_largest finds the largest continuous section of memory with at least the selected traits, and returns whether there is one.",
  "every table of regions, every mask of traits",
  "All orders and sizes of regions.",
  ["src/modm/platform/core/cortex/heap_table.cpp.in: find_largest", "src/modm/platform/core/cortex/heap_table.hpp: documentation"])
P("C239", "Heap of pools: traits",
  "malloc_traits returns memory of a pool that has all traits asked for, except that core coupled or external memory may be replaced by other memory; if a pool with all traits has memory left, the memory comes from such a pool; null only if no pool with the other traits and the S-Bus has memory left.",
  "every set of pools, every set of traits, every state of the allocators",
  "Needs memory that is used up pool by pool.",
  ["src/modm/platform/heap/cortex/heap_tlsf.cpp: malloc_traits"])
P("C240", "Heap of pools: free, calloc",
  "Every region of the heap is put into exactly one allocator; free gives a block back to the allocator it came from; calloc(n, size) returns n * size bytes set to zero.",
  "every table of separate regions, every block",
  "Depends on the linker script.",
  ["src/modm/platform/heap/cortex/heap_tlsf.cpp: __modm_initialize_memory, get_tlsf_for_ptr, __wrap__free_r, __wrap__calloc_r"])
P("C241", "Lock and Unlock",
  "In a scope with a modm::atomic::Lock no interrupt is taken (except inside of a scope with an Unlock); in a scope with an Unlock PRIMASK masks no interrupt; at the end of any nesting of scopes, in the main program and in every handler, the mask registers are what they were at its begin.",
  "every program of nested scopes, every interrupt at any time with any handler",
  "Needs interrupts between any two accesses to the registers.",
  ["src/modm/platform/core/cortex/atomic_lock_impl.hpp.in: Lock, Unlock", "src/modm/platform/core/avr/atomic_lock_impl.hpp: Lock, Unlock"])
P("C242", "LockPriority",
  "In a scope with a modm::atomic::LockPriority(q) only interrupts that are more urgent than q are taken; on a core without BASEPRI none.",
  "every program of nested scopes, every priority and number of priority bits, every interrupt",
  "Needs interrupts of all priorities between any two accesses.",
  ["src/modm/platform/core/cortex/atomic_lock_impl.hpp.in: LockPriority", "src/modm/architecture/interface/atomic_lock.hpp: documentation"])
P("C243", "Atomic operations",
  "The functions __atomic_load, store, exchange, compare_exchange, fetch_… for objects that the core cannot access atomically happen one after the other: each returns the value left by the one before, never a mixture, though their callers interrupt each other.",
  "every sequence of operations in the main program and all handlers, every interleaving",
  "Interrupts between the words of a value.",
  ["ext/gcc/atomics_c11_cortex.cpp.in: __atomic_*"])
P("C244", "Function statics",
  "A function static is constructed exactly once, and no caller gets past its initialisation before the constructor has ended, though handlers that interrupt the callers use it as well.",
  "every interleaving of calls and interrupts",
  "Needs an interrupt between two instructions.",
  ["ext/gcc/cxxabi.cpp.in: __cxa_guard_acquire, __cxa_guard_release"])
P("C245", "Assertion handlers",
  "A failed modm_assert is abandoned; a failed modm_assert_continue_fail if no handler says Ignore or one says Fail; modm_assert_continue_ignore only if a handler says Fail; in all other cases the value of the macro is that of the condition; the order of handlers does not matter.",
  "every list of handlers, every macro",
  "Handlers are collected by the linker: any number in any order.",
  ["src/modm/platform/core/cortex/assert.cpp.in: modm_assert_report", "src/modm/architecture/interface/assert.h.in: macros", "src/modm/architecture/interface/assert.hpp.in: Abandonment, documentation"])
P("C246", "Two cores: exclusion",
  "At any time at most one scope with a modm::atomic::Lock or a SystemSpinLockGuard is being executed, on both cores of the RP2040 and in all their handlers together.",
  "every pair of programs, all handlers, every interleaving",
  "Needs two cores and all interleavings.",
  ["src/modm/platform/core/rp/multicore.hpp.in: CoreLock, SpinLockBlocking, SystemSpinLockGuard", "src/modm/platform/core/cortex/atomic_lock_impl.hpp.in: Lock (with_multicore)"])
P("C247", "Two cores: no deadlock",
  "A core that enters a scope with modm::atomic::Lock or SystemSpinLockGuard gets into it: if it waits, the other core is in such a scope and leaves it.",
  "every pair of programs, all handlers, every interleaving",
  "A deadlock needs an interrupt between two certain instructions.",
  ["src/modm/platform/core/rp/multicore.hpp.in: CoreLock, SpinLockBlocking, SystemSpinLockGuard", "src/modm/platform/core/cortex/atomic_lock_impl.hpp.in: Lock (with_multicore)"])
P("C248", "Mutex of two cores",
  "The cores are never both between Mutex::lock and unlock; a core that sleeps in lock is always woken: while it sleeps the other one is before the end of unlock.",
  "every interleaving of both cores, events at any time",
  "Needs two cores and all interleavings.",
  ["src/modm/platform/core/rp/multicore.hpp.in: Mutex"])
P("C249", "Stack of the second core",
  "multicore::Core1::run starts the second core with its own stack: the stack pointer is the top of the memory reserved for it.",
  "every position and size of the stack",
  "Depends on the linker script.",
  ["src/modm/platform/core/rp/multicore.cpp: runCore1, Core1::run", "src/modm/platform/core/cortex/linker.macros: section_stack"])
P("C250", "TLC594x grayscale buffer",
  "After setChannel(ch, v) the twelve bits that the chip with this channel receives are the lower twelve of v, those of all other channels are unchanged; setAllChannels sets all; getChannel returns what will be sent.",
  "every number of channels, every channel, every value, every contents of the buffer",
  "Channels share bytes: all pairs of channels.",
  ["src/modm/driver/pwm/tlc594x_impl.hpp: setChannel, setAllChannels, getChannel"])
P("C251", "TLC594x dot correction",
  "After setDotCorrection(ch, v) the six bits of this channel are those of v, those of all other channels are unchanged; setAllDotCorrection sets all; getDotCorrection returns what will be sent.",
  "every number of channels, every channel, every value, every contents of the buffer",
  "Channels share bytes: all pairs of channels.",
  ["src/modm/driver/pwm/tlc594x_impl.hpp: setDotCorrection, setAllDotCorrection, getDotCorrection"])
P("C252", "WS2812B and SK6812W",
  "After setColor(i, c) LED i is sent the colour c, all others what they were sent before; the bits between the data are always those of the protocol; getColor returns the colour that was set; clear sets all to 0.",
  "every number of LEDs, every LED, every colour, every contents of the buffer",
  "2^24 colours, all positions.",
  ["src/modm/driver/pwm/ws2812b.hpp: spread, gather, clear, setColor, getColor", "src/modm/driver/pwm/sk6812w.hpp: setColor, getColor"])
P("C253", "APA102 and SK9822",
  "setColorBrightness, setColor and setBrightness change what is sent to the LED, and to no other, as asked (brightness modulo 32); start frame, the three marker bits of each LED and the end frame stay; enough clocks follow for the last LED; the getters return what is sent.",
  "every number of LEDs, every LED, colour and brightness, every contents of the buffer",
  "All positions and values.",
  ["src/modm/driver/pwm/apa102.hpp: Apa102"])
P("C254", "Chain of MAX6966",
  "In a chain of any number of drivers setChannel changes the PWM value of exactly this channel, getChannel returns it and changes nothing, setChannels sets each channel to its value in the array, setAllChannels all, setHalfCurrent exactly the bit of the channel.",
  "every length of the chain, every channel and value, every state of the chips",
  "Needs a chain of chips.",
  ["src/modm/driver/pwm/max6966_impl.hpp: all functions", "src/modm/driver/pwm/max6966.hpp: writeToDriverMasked"])
P("C255", "Readings of temperature sensors",
  "The temperature returned by the Data classes of LM75, TMP175, DS1631, TMP102 (both formats), STTS22H, MAX31855 (thermocouple and reference), MCP990x and TMP121/123/125 is the one in the register of the device, for positive and negative temperatures and whatever the unused bits are.",
  "every contents of the registers; every width and position of the code for TMP12x",
  "Sign and shift errors show only for some codes.",
  ["src/modm/driver/temperature/lm75.hpp: Data", "src/modm/driver/temperature/tmp102.hpp: Data", "src/modm/driver/temperature/tmp12x.hpp: Tmp12xTemperature", "src/modm/driver/temperature/max31855.hpp: Data", "src/modm/driver/temperature/mcp990x.hpp: Data", "src/modm/driver/temperature/stts22h.hpp: Data"])
P("C256", "Integer parts of temperatures",
  "getTemperatureInteger returns the signed integer part of the temperature (the integer below for LM75, TMP102 and MCP990x, without the fraction for TMP12x).",
  "every contents of the registers",
  "All temperatures of all formats.",
  ["src/modm/driver/temperature/lm75.hpp: getTemperatureInteger", "src/modm/driver/temperature/tmp102.hpp: getTemperatureInteger", "src/modm/driver/temperature/tmp12x.hpp: getTemperatureInteger", "src/modm/driver/temperature/mcp990x.hpp: getTemperatureInteger"])
P("C257", "DS18B20 in hundredths of a degree",
  "readTemperature returns the temperature of the device rounded to the nearest hundredth of a degree; without a device the result can be told from a temperature.",
  "every temperature of the device",
  "All codes.",
  ["src/modm/driver/temperature/ds18b20_impl.hpp: readTemperature"])
P("C258", "Limits of LM75 and TMP102",
  "setUpperLimit and setLowerLimit write the temperature asked for, rounded towards zero to the resolution of the register, in the format in use, for every temperature in the range of the format.",
  "every temperature (rational) in the range of the format",
  "Needs all temperatures and both formats.",
  ["src/modm/driver/temperature/lm75_impl.hpp: setLimitRegister", "src/modm/driver/temperature/tmp102_impl.hpp: setLimitRegister"])
P("C259", "Limits of TMP175 and DS1631",
  "setUpperLimit and setLowerLimit write the temperature asked for if the resolution can represent it.",
  "every resolution, every temperature",
  "Needs all temperatures and resolutions.",
  ["src/modm/driver/temperature/tmp175_impl.hpp: setLimitRegister", "src/modm/driver/temperature/ds1631_impl.hpp: setLimitRegister"])
P("C260", "Update rates of TMP102, TMP175 and DS1631",
  "After setUpdateRate(rate) the device converts, and the driver reads, at this rate.",
  "every rate, every state of the driver",
  "All rates.",
  ["src/modm/driver/temperature/tmp102_impl.hpp: setUpdateRate, run", "src/modm/driver/temperature/tmp175_impl.hpp: setUpdateRate", "src/modm/driver/temperature/ds1631_impl.hpp: setUpdateRate"])
P("C261", "Conversions of TMP175 and DS1631",
  "update() reads the result of a conversion that it started, after the conversion time of the resolution; the default address is one the device answers to.",
  "every resolution and mode",
  "Needs the device's timing.",
  ["src/modm/driver/temperature/tmp175_impl.hpp: run, setResolution", "src/modm/driver/temperature/ds1631_impl.hpp: run", "src/modm/driver/temperature/ds1631.hpp: Ds1631"])
P("C262", "MAX31865",
  "getResistance is the code of the device in units of Rref/2^15; getTemperatureFast is the linear temperature for the R0 given; a conversion is started only after the bias voltage has been on for 10 ms.",
  "every code, every R0, Rref and alpha; every number of readings",
  "Sequences of readings and parameters.",
  ["src/modm/driver/temperature/max31865.hpp: Data", "src/modm/driver/temperature/max31865_impl.hpp: initialize, readout"])
P("C263", "Compensation of the MS5611",
  "getPressure and getTemperature are the compensated pressure and temperature of the data sheet (first and second order) for every calibration and every pair of raw values.",
  "every calibration of 16-bit words, every pair of 24-bit raw values",
  "2^144 combinations; overflow only at the edges.",
  ["src/modm/driver/pressure/ms5611_data_impl.hpp: calculateCalibratedValues"])
P("C264", "Compensation of the MS5837",
  "getPressure and getTemperature are the compensated pressure and temperature of the data sheet (first and second order, both above and below 20 °C) for every calibration and every pair of raw values.",
  "every calibration of 16-bit words, every pair of 24-bit raw values",
  "2^144 combinations; overflow only at the edges.",
  ["src/modm/driver/pressure/ms5837_data_impl.hpp: calculateCalibratedValues"])
P("C265", "Check of the calibration of MS5611 and MS5837",
  "initialize returns true only for a calibration that was read from the device: no single wrong bit and no burst of up to four wrong bits within a word passes, and a device that is missing is reported.",
  "every calibration, every error pattern of that kind",
  "All calibrations and error patterns.",
  ["src/modm/driver/pressure/ms5611_data.hpp: calculateCrc", "src/modm/driver/pressure/ms5611_impl.hpp: initialize", "src/modm/driver/pressure/ms5837_data.hpp: calculateCrc", "src/modm/driver/pressure/ms5837_impl.hpp: initialize, readProm"])
P("C266", "Getters of pressure sensors",
  "getPressure and getTemperature return the values of the raw data last read, in whichever order and however often they are called, even between the steps of a readout.",
  "every sequence of steps and getters, every compensation formula",
  "Needs all interleavings.",
  ["src/modm/driver/pressure/ms5611_data_impl.hpp: getPressure, getTemperature", "src/modm/driver/pressure/ms5611_impl.hpp: readout", "src/modm/driver/pressure/ms5837_impl.hpp: readout", "src/modm/driver/pressure/bmp085_impl.hpp: readout", "src/modm/driver/pressure/bmp085_data_impl_fp.hpp: getPressure, getTemperature"])
P("C267", "Compensation of the BMP085 in fixed point",
  "Temperature and pressure are those of the algorithm in the data sheet for every calibration, oversampling and raw value.",
  "every calibration, every oversampling, every raw value",
  "2^200 combinations; conversions to 16 bits fail only for some of them.",
  ["src/modm/driver/pressure/bmp085_data_impl_fp.hpp: calculateCalibratedTemperature, calculateCalibratedPressure"])
P("C268", "Normalised pressure of AMS5915 and HCLA",
  "getPressure is between 0 and 1 and counts from the offset of the sensor, also for readings slightly outside the range.",
  "every contents of the data",
  "All readings.",
  ["src/modm/driver/pressure/ams5915.hpp: getPressure", "src/modm/driver/pressure/hclax.hpp: getPressure"])
P("C269", "Check of the AD7280A",
  "The check sum is the remainder of the division by x^8+x^5+x^3+x^2+x+1; no wrong reading with a burst of up to eight wrong bits passes, and a bus that stays low is reported.",
  "every word, every burst",
  "2^32 words times all bursts.",
  ["src/modm/driver/adc/ad7280a_impl.hpp: updateCrc, calculateCrc, read"])
P("C270", "Words to and from the AD7280A",
  "What write sends is a valid command that the device takes apart into the device, register, value and broadcast flag asked for; every reading of a device is accepted and taken apart into its device, channel and value.",
  "every device, register, value, channel",
  "2^19 commands, 2^21 readings.",
  ["src/modm/driver/adc/ad7280a_impl.hpp: write, read, readConversionResult"])
P("C271", "Results of the AD7280A",
  "readChannel returns the voltage of the channel asked for; readAllChannels returns the six voltages, with success exactly if all were read rightly; the averaging chosen with initialize is used; chainSetup reports a missing device; performSelftest succeeds exactly for a right conversion of the reference.",
  "every device contents, every channel, every behaviour of the bus",
  "All measurements and channels; the unit test of the driver checks the words sent, against a mock.",
  ["src/modm/driver/adc/ad7280a_impl.hpp: readChannel, readAllChannels, initialize, chainSetup, performSelftest"])
P("C272", "Settings of the ADS101x",
  "The device works with the input, range, mode, rate and comparator settings last asked for; values and voltages are those of the device.",
  "every sequence of calls, every value",
  "All sequences of calls.",
  ["src/modm/driver/adc/ads101x.hpp", "src/modm/driver/adc/ads101x_impl.hpp"])
P("C273", "ADS7828, MCP3008, HX711 and MCP4922",
  "The words sent hold the channel, mode and value asked for, and the values read are those the device sent.",
  "every channel, mode and value",
  "All values; HX711 has 2^24.",
  ["src/modm/driver/adc/ads7828.hpp", "src/modm/driver/adc/ads7828_impl.hpp", "src/modm/driver/adc/mcp3008_impl.hpp: read", "src/modm/driver/adc/hx711_impl.hpp: singleConversion", "src/modm/driver/dac/mcp4922_impl.hpp"])
P("C274", "Conversions of the AD7928",
  "singleConversion delivers a valid result of the channel asked for by the conversion before; nextSequenceConversion delivers the channels of the two sequences in turn; the automatic shutdown remains as chosen.",
  "every sequence of calls, every state in which the device is found",
  "All sequences of calls and power states.",
  ["src/modm/driver/adc/ad7928_impl.hpp", "src/modm/driver/adc/ad7928.hpp"])
P("C275", "malloc and free on AVR",
  "Every call of malloc and free comes to an end; what malloc hands out lies in the heap, is as long as asked for, overlaps nothing else that is held and keeps what was written until it is freed; memory behind the heap is never written; memory that was freed can be had again.",
  "every sequence of malloc, free and writes, every block size, limit and heap size",
  "Unboundedly many sequences; markers of one byte overflow only in heaps of some size.",
  ["src/modm/platform/heap/avr/ram.cpp.in: initializeMemory, allocateMemory, freeMemory"])
P("C276", "Startup of Cortex-M",
  "Hooks find the internal sections initialised or cleared, constructors all sections, with everything else untouched; main runs after all constructors, called once each and in order.",
  "every layout of the linker, every contents of the memory, every set of hooks and constructors",
  "All layouts and memory contents; a test runs after the startup.",
  ["src/modm/platform/core/cortex/startup.c.in: table_copy, table_zero, table_call, __modm_startup", "src/modm/platform/core/cortex/linker.macros"])
P("C277", "_sbrk_r",
  "The pieces handed out lie in the heap and do not overlap; a request is met as long as the memory is there; the heap does not shrink below its start.",
  "every sequence of sizes",
  "All sequences.",
  ["src/modm/platform/heap/cortex/heap_newlib.cpp: _sbrk_r"])
P("C278", "operator new",
  "new returns memory that malloc gave for the size, never null, and fails only with no new handler left; the nothrow form is the same with null for a failure; an array of no elements can be had.",
  "every behaviour of malloc and of the handler, every size",
  "All behaviours of malloc and of handlers.",
  ["ext/gcc/new_delete.cpp.in: new_assert, operator new"])
P("C279", "TLSF: separate memory",
  "Every allowed call of malloc, free and realloc is defined; the memory handed out lies in the pool, is as long as asked for and overlaps nothing else that is held; it keeps what was written into it until it is given back; memory outside of the pool is never written.",
  "every sequence of malloc, free, realloc and stores, every pool, every setting of the subdivisions and of the largest size",
  "Unboundedly many sequences of calls and shapes of the heap; lists, bitmaps and headers must agree in all of them.",
  ["ext/tlsf/tlsf.c.in: tlsf_create_with_pool, tlsf_malloc, tlsf_free, tlsf_realloc", "src/modm/platform/heap/cortex/heap_tlsf.cpp: malloc, free, realloc"])
P("C280", "TLSF: when malloc fails",
  "malloc returns null, leaving the heap as it is, only if every free block is smaller than the size rounded up; free blocks that touch are joined, so there is at most one more of them than allocations; with everything given back the whole pool can be had again.",
  "every sequence of calls, every size",
  "All orders of giving back; a test sees few of them.",
  ["ext/tlsf/tlsf.c.in: mapping_search, search_suitable_block, block_merge_prev, block_merge_next"])
P("C281", "TLSF: realloc",
  "realloc returns null and changes nothing, or memory of the new size that holds what the old memory held, as far as both go.",
  "every reachable heap, every size",
  "All shapes of the heap around the block: growth in place, moving, trimming with and without a free neighbour.",
  ["ext/tlsf/tlsf.c.in: tlsf_realloc, block_trim_used"])
P("C282", "HD44780: every byte arrives",
  "initialize brings the controller into step with the four or eight lines from every state of its interface, in the middle of a byte too, and leaves it empty and switched on; from then on every command and every character arrives exactly once and never while the controller is busy.",
  "every state of the interface, both widths, every busy time, every byte",
  "All states in which a reset can leave the controller, and all its busy times.",
  ["src/modm/driver/display/hd44780_base_impl.hpp: initialize, writeCommand, writeRAM, isBusy, Bus::write, Bus::read"])
P("C283", "Character displays: text",
  "What is written to an HD44780 display, with one controller or two, stands where a typewriter would have put it: at the cursor, continued in the next line when a line is full or ends, from the first line again after the last one; clear empties the display and goes back to the first position.",
  "every size of display, every sequence of characters, cursor positions and clear",
  "All texts and sizes; the memory of the controller is laid out unlike the display.",
  ["src/modm/ui/display/character_display.cpp: write", "src/modm/driver/display/hd44780_impl.hpp: setCursor, writeRaw, clear"])
P("C284", "HD44780: user defined characters",
  "writeCGRAM defines one of the characters 0 to 7 and changes neither another one nor the text.",
  "every character, every pattern, every state of the display",
  "All characters, patterns and busy times.",
  ["src/modm/driver/display/hd44780_impl.hpp: writeCGRAM", "src/modm/driver/display/hd44780_base_impl.hpp: writeCGRAM"])
P("C285", "ST7036: text",
  "Text written to an ST7036 display stands where a typewriter would have put it.",
  "every width, every text",
  "All texts.",
  ["src/modm/driver/display/st7036_impl.hpp: setCursor, writeRaw", "src/modm/ui/display/character_display.cpp: write"])
P("C286", "SPI master of STM32 by polling: transfers",
  "When transfer(tx, rx, length) has returned Stop, exactly the bytes at tx (zeros without tx) went over the wire in order, the answer to each is at its place in rx, nothing else in memory has changed, no byte was lost and the master is idle; the transfer may be given the same buffer for both directions, and it returns if the hardware progresses.",
  "every length, buffer, device, depth of the FIFO, and every progress of the hardware between and within the calls",
  "All interleavings of the calls with the hardware, for all lengths.",
  ["src/modm/platform/spi/stm32/spi_master.cpp.in: transfer(uint8_t), transfer(const uint8_t*, uint8_t*, size_t)"])
P("C287", "SPI master of STM32 by DMA: transfers",
  "The transfer by DMA does the same: all bytes sent and all answers in memory when it returns, zeros sent without tx, for every length; it does not hang.",
  "every length, buffer, device, and every order of hardware events, interrupts and calls",
  "All orders of events of two DMA channels, two interrupts and the peripheral.",
  ["src/modm/platform/spi/stm32/spi_master_dma_impl.hpp.in: transfer, handleDmaReceiveComplete, handleDmaTransmitComplete", "src/modm/platform/dma/stm32/dma.hpp.in: start, interruptHandler"])
P("C288", "SPI master of STM32 by DMA: bus errors",
  "A bus error of a DMA channel ends the transfer, and later transfers work again.",
  "every state of a transfer, every later execution",
  "Bus errors do not occur in tests on a host, and the failure is that nothing ever happens again.",
  ["src/modm/platform/spi/stm32/spi_master_dma_impl.hpp.in: handleDmaTransferError", "src/modm/platform/dma/stm32/dma.hpp.in: interruptHandler, disable"])
P("C289", "Data flash AT45DB: pages and buffers",
  "On a device with pages of 256 bytes, any sequence of operations that are each waited for acts like the same sequence on a memory of pages and two buffers: what is read is what was stored, comparisons tell the truth, buffers and pages wrap at their end, nothing else changes; every operation ends; the other buffer may be written while one is being stored.",
  "every sequence of operations, page, address, data, and busy time",
  "All sequences, all data and all busy times of a device that is not there in a unit test.",
  ["src/modm/driver/storage/at45db0x1d_impl.hpp: copyPageToBuffer, comparePageToBuffer, isCompareEqual, copyBufferToPage, copyBufferToPageWithoutErase, readFromBuffer, writeToBuffer, readFromMemory, readPageFromMemory, pageRewrite, waitUntilReady"])
P("C290", "Data flash AT45DB: erasing",
  "pageErase, blockErase and chipErase set the bytes of the page, of the eight pages of the block, of all pages to 0xff.",
  "every page, every contents, every busy time",
  "The failure is silent: nothing happens.",
  ["src/modm/driver/storage/at45db0x1d_impl.hpp: pageErase, blockErase, chipErase"])
P("C291", "Data flash AT45DB: initialisation",
  "When initialize has returned true, the device has pages of 256 bytes and is ready for use; its contents are unchanged.",
  "every state of the device",
  "The failure needs a device as delivered, or one that is busy when the processor starts.",
  ["src/modm/driver/storage/at45db0x1d_impl.hpp: initialize"])
P("C292", "UART of the AVR: sending",
  "Under every interleaving of main program, interrupt and hardware the bytes accepted by write and not discarded are sent once, in order, and all of them without any further call; write refuses only if the queue is full; when isWriteFinished returns true, or flushWriteBuffer or writeBlocking returns, all accepted bytes have been sent.",
  "every execution, every size of the queue",
  "All interleavings with interrupts and hardware.",
  ["src/modm/platform/uart/at90_tiny_mega/uart_tx.cpp.in: USART_UDRE, write, writeBlocking, flushWriteBuffer, isWriteFinished, discardTransmitBuffer"])
P("C293", "UART of the AVR: receiving",
  "Under every interleaving the bytes read are bytes that arrived, in order, none twice; if a byte was lost or damaged, getErrorFlags tells so.",
  "every execution, every size of the queue",
  "All interleavings with interrupts and hardware.",
  ["src/modm/platform/uart/at90_tiny_mega/uart_rx.cpp.in: USART_RX, read, discardReceiveBuffer, getErrorFlags, acknowledgeErrorFlags"])
P("C294", "Radio nRF24: registers",
  "Reading, writing, setting and clearing bits, addresses, speed, power, repetitions, check sum and pipes change exactly the named field of the device and can be read back.",
  "every device state, every value, every pipe",
  "All 256 values of every register, all addresses.",
  ["src/modm/driver/radio/nrf24/nrf24_phy_impl.hpp: readRegister, writeRegister, setBits, clearBits, setRxAddress, setTxAddress, readAddressRegister", "src/modm/driver/radio/nrf24/nrf24_config_impl.hpp: setSpeed, getSpeed, setCrc, setRfPower, setAutoRetransmitDelay, setAutoRetransmitCount, enablePipe", "src/modm/driver/radio/nrf24/nrf24_config.hpp: disablePipe"])
P("C295", "Radio nRF24: sending and feedback",
  "sendPacket accepts a packet unless busy, and the device then sends just this packet to its destination; once its fate is known, update ends the transmission and the feedback is true: FinishedAck if it was acknowledged, FinishedNack if not, DontKnow if no acknowledgement was requested.",
  "every execution after initialize, every packet, every fate",
  "The fate of packets on the air, timeouts and resets cannot be set up in a unit test.",
  ["src/modm/driver/radio/nrf24/nrf24_data_impl.hpp: initialize, sendPacket, updateSendingState, update", "src/modm/driver/radio/nrf24/nrf24_config_impl.hpp: setMode"])
P("C296", "Radio nRF24: receiving",
  "While not sending the device takes packets for its own address and for all and no others; getPacket returns each packet that was taken once, in order, and nothing else.",
  "every execution after initialize, every packet",
  "The failures need packets arriving at certain moments, or resets.",
  ["src/modm/driver/radio/nrf24/nrf24_data_impl.hpp: initialize, getPacket, isPacketAvailable, update", "src/modm/driver/radio/nrf24/nrf24_config_impl.hpp: setMode"])
P("C297", "An SSD1306 shows the buffer after an update",
  "After Ssd1306::initialize and any number of update() calls the memory of the controller that the panel shows holds the last buffer, for both heights, also if an earlier transfer was interrupted.",
  "all states of the controller before initialize, all sequences of updates, all buffers",
  "The result depends on the pointer of the controller, which survives from one update to the next one; a test of one update of one height with a recorded bus does not see the second update or the one after an error.",
  ["src/modm/driver/display/ssd1306_impl.hpp:24-108", "src/modm/driver/display/ssd1306.hpp:110-112"])
P("C298", "An SH1106 shows the buffer after every complete update",
  "Each page that is sent by Sh1106::update goes to that page from column 2 on, wherever the pointer was; the rest of the memory is unchanged, and a complete update shows the whole buffer even after interrupted ones.",
  "all heights up to 64, all states of the controller, all sequences of complete and interrupted updates",
  "A test can only interrupt a transfer at some places and compare some pictures.",
  ["src/modm/driver/display/sh1106.hpp:30-72", "src/modm/driver/display/ssd1306_impl.hpp:24-68"])
P("C299", "Nokia 5110, KS0108 and ST7565 show the buffer after an update",
  "update() of these displays reads the buffer inside of its bounds and puts each byte to the column and page of the panel at which setPixel stored it in the buffer.",
  "all buffers, all states of the controllers, all widths and heights of the ST7565",
  "The reads outside of the buffer are undefined behaviour and need not be noticed by a test; the drivers need hardware.",
  ["src/modm/driver/display/nokia5110_impl.hpp:19-57", "src/modm/driver/display/ks0108_impl.hpp:39-115", "src/modm/driver/display/st7565_impl.hpp:21-48", "src/modm/ui/display/monochrome_graphic_display.hpp:76"])
P("C300", "The view from the top of an ST7565 is the other view turned",
  "With TopView the picture of an ST7565 display is turned by 180 degrees, at the same segments of the glass.",
  "all pictures, all columns and pages, the widths of all EA DOG displays",
  "Needs the wiring of three different displays.",
  ["src/modm/driver/display/st7565_impl.hpp:21-48", "src/modm/driver/display/st7565_impl.hpp:83-91", "src/modm/driver/display/ea_dog.hpp:36-100"])
P("C301", "An ST7586S gets the pixels of the buffer in groups of three",
  "update() stays inside of the buffer and sends for each line Width / 3 bytes, the byte k of which has the pixels 3k, 3k+1 and 3k+2 as getPixel reads them.",
  "all widths that are multiples of eight, all heights, lines and buffers",
  "The repacking of bytes of eight pixels to bytes of three has a state that depends on all earlier bytes of the line.",
  ["src/modm/driver/display/st7586s_impl.hpp:94-126"])
P("C302", "A chain of MAX7219 gets registers and rows at the right chips",
  "initializeMatrix and setBrightness reach every chip of the chain whatever its state was; update() of the matrix displays reads the buffer inside of its bounds and shows each byte at the module of the documented layout.",
  "all lengths of the chain, all numbers of columns and rows, all states of the chips, all buffers",
  "The chain is a shift register through all chips; tests would need a number of chips and see only some layouts.",
  ["src/modm/driver/display/max7219.hpp:55-139", "src/modm/driver/display/max7219_matrix.hpp:86-115", "src/modm/driver/display/max7219_matrix_horizontal.hpp:80-104", "src/modm/ui/display/monochrome_graphic_display.hpp:76"])
P("C303", "RTT delivers the accepted bytes to the debugger in order",
  "While program and debugger access an RTT transmit buffer at the same time, the debugger gets exactly the bytes whose write() returned true, in their order; write() returns false exactly if size - 1 bytes wait; a debugger that reads gets all of them; isWriteFinished() tells whether all are acknowledged.",
  "all buffer sizes, all bytes, all interleavings of the single accesses of program and debugger",
  "The debugger reads the memory at any moment; a test cannot place it between two accesses of the program.",
  ["src/modm/platform/uart/rtt/rtt.cpp.in:19-53", "src/modm/platform/uart/rtt/rtt.cpp.in:96-125", "src/modm/platform/uart/rtt/module.md:3-8"])
P("C304", "RTT returns the bytes of the debugger in order",
  "read() returns the bytes that the debugger published, in their order, without gaps and repetitions; it returns false exactly if there is none.",
  "all buffer sizes, all bytes, all interleavings of the single accesses of program and debugger",
  "The debugger writes the memory at any moment; a test cannot place it between two accesses of the program.",
  ["src/modm/platform/uart/rtt/rtt.cpp.in:38-46", "src/modm/platform/uart/rtt/rtt.cpp.in:127-150"])
P("C305", "RTT reports the fill levels and handles blocks and missing buffers",
  "write() and read() of blocks move as many bytes as possible and return their number; transmitBufferSize() and receiveBufferSize() are the number of bytes that wait; a direction whose buffer has the size 0 refuses bytes.",
  "all buffers, blocks and sizes",
  "The number of bytes depends on the position in the ring, of which tests reach some; size 0 is a configuration that tests of other sizes do not build.",
  ["src/modm/platform/uart/rtt/rtt.cpp.in:28-53", "src/modm/platform/uart/rtt/rtt.cpp.in:96-150", "src/modm/platform/uart/rtt/module.md:20-40"])
P("C306", "A TSC2046 delivers the measurements of its inputs",
  "Touch2046::getRawValues returns the sums of three measurements of X and of Y and 4095 + Z1 - Z2, whatever an earlier transfer left; afterwards the converter is switched off so that it reports the next touch; isTouched compares with the threshold.",
  "all measurements of 12 bits, all states of the converter and of the buffer",
  "The results are shifted by one clock and overlap with the commands; a test with constant measurements does not notice an exchanged one, and tests cannot try all values.",
  ["src/modm/driver/touch/touch2046.hpp:109-123", "src/modm/driver/touch/touch2046_impl.hpp:19-57"])
P("C307", "Touch2046 reports positions on the display",
  "getTouchPosition is raw * factor / 1000000 + offset, limited to [0, max], for every calibration.",
  "all raw values, factors, offsets and limits",
  "The overflow and the conversion of negative values depend on raw value and calibration; tests use a single calibration.",
  ["src/modm/driver/touch/touch2046.hpp:33-61", "src/modm/driver/touch/touch2046_impl.hpp:59-79"])
P("C308", "ADS7843 reports stable positions only",
  "Ads7843::read returns true exactly if the pen was down after each of the first eight samples and for both coordinates two of the three groups of samples differ by at most two; the value is the mean of the two closest groups, so a disturbed group does not matter.",
  "all samples, all moments at which the pen is lifted",
  "The result depends on 18 samples of 12 bits and the moment at which the pen is lifted.",
  ["src/modm/driver/touch/ads7843_impl.hpp:28-111", "src/modm/driver/touch/ads7843.hpp:33-45"])
P("C309", "FT6x06 reports the touches of the chip",
  "After a successful readTouches gesture, number, event, identifier and coordinates of both touches are those of the registers of the chip; a failed transaction leaves the data as they were; there is no third touch.",
  "all contents of the registers and of the old data",
  "The bit fields of two touches in 14 registers have too many values to test.",
  ["src/modm/driver/touch/ft6x06.hpp:127-158", "src/modm/driver/touch/ft6x06_impl.hpp:41-81"])
P("C310", "A transaction on a channel of an I2C multiplexer reaches this channel",
  "A transaction started on a channel of an I2cMultiplexer with a PCA9548A reaches the devices of exactly this channel, or is not started; readCommandRegister returns the register of the chip.",
  "all channels, all histories of the multiplexer, all failures of transactions",
  "The driver leaves transactions out when it believes that the channel is selected; only histories with failures and reads show whether this is right.",
  ["src/modm/driver/gpio/pca9548a_impl.hpp:25-68", "src/modm/architecture/interface/i2c_multiplexer.hpp:95-107"])
P("C311", "A PCA9685 dims each channel to the last value",
  "After initialize and any calls of setChannel and setAllChannels each of the 16 channels is on for the first v of 4096 ticks, where v are the low 12 bits of the last value that was acknowledged for it.",
  "all contents of the registers before, all modes, all histories with failures, all channels, values and ticks",
  "The registers of single channels and those for all of them overlap, with automatic increment; tests see one history.",
  ["src/modm/driver/pwm/pca9685_impl.hpp:23-91", "src/modm/driver/pwm/pca9685.hpp:160-196"])
P("C312", "An AS5047 reports the angle of the chip",
  "The commands have even parity for every address; getAngleRaw is the register of the chip; the angle in degrees is raw * 360 / 16384; answers with an error are not taken for angles.",
  "all addresses of 14 bits, all contents of the registers",
  "Parity and order of bytes matter for every value; the chip is not there in unit tests.",
  ["src/modm/driver/encoder/as5047.hpp:30-109", "src/modm/driver/encoder/as5047_impl.hpp:28-53"])
P("C313", "An MCP4922 outputs the values of the last update",
  "After any calls of setChannelA, setChannelB and update both outputs have the low 12 bits and the gain that were set last before the last update.",
  "all histories, values, gains and states of the chip",
  "Both channels share a register format; a wrong bit changes the gain or the other channel only.",
  ["src/modm/driver/dac/mcp4922_impl.hpp:20-78", "src/modm/driver/dac/mcp4922.hpp:26-90"])
P("C314", "A touch goes to the widget on top",
  "An input event goes to the widget that is drawn on top at its point and to no other one; if there is none, nothing changes.",
  "all trees of widgets and groups, all points and states",
  "The order of drawing and the order of events have to agree at every point; tests touch a few.",
  ["src/modm/ui/gui/view.cpp:34-69", "src/modm/ui/gui/widgets/widget.cpp:131-172"])
P("C315", "A press ends with the release",
  "A press activates the widget that is touched, and after the release no widget is active; each callback is called once.",
  "all trees of widgets, all places of press and release",
  "Press and release may come at any two places.",
  ["src/modm/ui/gui/widgets/widget.cpp:131-157", "src/modm/ui/gui/widgets/widget.hpp:118-140"])
P("C316", "Widgets are where their groups are",
  "After any setPosition and pack at any depth each widget of a tree is at the position of its parent plus its relative position; pack accepts exactly what fits into the group.",
  "all trees, all paths, all operations",
  "Positions are stored twice and updated along pointers; depth is not limited.",
  ["src/modm/ui/gui/widgets/widget.cpp:17-35", "src/modm/ui/gui/widgets/widget.cpp:60-72", "src/modm/ui/gui/widgets/widget.hpp:164-221", "src/modm/ui/gui/widgets/widget.hpp:393-410"])
P("C317", "The display shows the widgets on top",
  "After View::draw the display shows at every point the current look of the widget on top, and nothing is left to draw.",
  "all views, all overlaps, all sets of changed widgets, all points",
  "Only changed widgets and those on top of them are drawn again; whether this is enough depends on the whole arrangement.",
  ["src/modm/ui/gui/view.cpp:72-127", "src/modm/ui/gui/widgets/widget.hpp:75-90", "src/modm/ui/gui/widgets/widget.cpp:37-48", "src/modm/ui/gui/widgets/widget.cpp:74-129"])
P("C318", "Fields show their values",
  "A FloatField shows its value rounded towards zero to thousandths; a check box shows its state.",
  "all values",
  "Signs and carries of all values.",
  ["src/modm/ui/gui/widgets/numberfield.cpp:57-61", "src/modm/ui/gui/widgets/checkbox.hpp:45-46", "src/modm/ui/gui/widgets/checkbox.cpp:56-62"])
P("C319", "A StringRocker goes through its entries in a circle",
  "next and previous stay within start and end, undo each other, and n times next goes n entries further cyclically.",
  "all limits and entries of 32 bits, all n",
  "The limits may be those of the type.",
  ["src/modm/ui/gui/widgets/composed_widgets/stringrocker.cpp:15-53"])
P("C320", "The colours of a view can be set",
  "setColorPalette of a view or a group returns and sets the colours of all its widgets.",
  "all views and trees of groups",
  "A call that never returns has no result to compare.",
  ["src/modm/ui/gui/view.cpp:130-147", "src/modm/ui/gui/widgets/widget.cpp:50-58", "src/modm/ui/gui/widgets/widget.hpp:149-155"])
P("C321", "Calculated I2C timings meet clock and set-up times",
  "A result of I2cTimingCalculator gives a speed within the tolerance, low, high and set-up times as the I2C specification requires, and fits into the fields; no combination that is tried is nearer to the target, and there is a result if one of them is within the tolerance.",
  "all clocks, target speeds, tolerances, filters, rise and fall times",
  "A search over prescalers and counters with rational conditions; tests compute a few clocks.",
  ["src/modm/platform/i2c/stm32-extended/i2c_timing_calculator.hpp:60-125", "src/modm/platform/i2c/stm32-extended/i2c_timing_calculator.hpp:208-327"])
P("C322", "Calculated I2C timings meet the hold times",
  "With a result of the calculator the data line changes after the clock line has fallen and is valid in the time required by the I2C specification, also with the rise times the specification allows.",
  "all clocks, target speeds, filters, rise and fall times",
  "Violations show on particular clocks and buses only.",
  ["src/modm/platform/i2c/stm32-extended/i2c_timing_calculator.hpp:208-242", "src/modm/platform/i2c/stm32-extended/i2c_master.hpp.in:47-69"])
P("C323", "The register for I2C timings has all fields",
  "timingsToRegisterValue has every timing in its field of TIMINGR and zeros in the reserved bits.",
  "all timings in range",
  "Overlaps show for particular values only.",
  ["src/modm/platform/i2c/stm32-extended/i2c_timing_calculator.hpp:127-136"])
P("C324", "normalize() ends with the same direction in the range",
  "Angle::normalize() returns for every angle; the result is in [-Pi, Pi] and the same direction, and an angle in the range is returned as it is.",
  "all angles",
  "A loop over all magnitudes of floats; tests use small angles.",
  ["src/modm/math/geometry/angle.cpp:20-36", "src/modm/math/geometry/angle.hpp:82-89"])
P("C325", "reverse() and perpendicular() turn and normalise",
  "Angle::reverse() equals normalize(angle + Pi); perpendicular() is a quarter of a turn in the direction asked for and in [-Pi, Pi].",
  "all angles",
  "The border of the range and the zero are single values.",
  ["src/modm/math/geometry/angle.cpp:39-66", "src/modm/math/geometry/angle.hpp:91-113"])
P("C326", "Movements of a location compose",
  "Moving a Location2D by d and then by e ends at the place and in the direction of one movement by (d moved by e); translated() says where moving along a vector ends; move(x, phi) is a movement straight ahead.",
  "all locations and movements, exact arithmetic, all functions with the addition theorems",
  "An equation over all angles and positions.",
  ["src/modm/math/geometry/location_2d_impl.hpp:94-136", "src/modm/math/geometry/vector2_impl.hpp:195-206"])
P("C327", "Locations are either equal or not",
  "Exactly one of == and != holds for two Location2D; both are symmetric, and equal locations have the same position and direction.",
  "all pairs of locations",
  "The border of a tolerance is a single value.",
  ["src/modm/math/geometry/location_2d_impl.hpp:147-161"])
P("C328", "Cycle counters that count up measure cycles",
  "CycleCounter::cycles() of AVR and DWT is the number of cycles between start() and stop() without the overhead, for all phases of the counter.",
  "all phases, times below a period and overheads",
  "Overflows depend on when the measurement starts.",
  ["src/modm/driver/time/cycle_counter.hpp.in:32-96"])
P("C329", "The cycle counter of a Cortex-M0 measures cycles",
  "CycleCounter::cycles() of a Cortex-M0 is the number of cycles between start() and stop() without the overhead, for all phases and reload values of SysTick, and the same for each call.",
  "all reload values, phases, times up to a period, dividers and overheads",
  "The underflow of the counter depends on when the measurement starts.",
  ["src/modm/driver/time/cycle_counter.hpp.in:40-96"])
P("C330", "Cycles are converted to times",
  "milliseconds(), microseconds() and nanoseconds() are the measured cycles in that unit, rounded down.",
  "all numbers of cycles and clocks",
  "Overflows happen for long measurements only.",
  ["src/modm/driver/time/cycle_counter.hpp.in:98-117"])
P("C331", "The semaphore of threads is a bounded counter",
  "In every interleaving an rtos::Semaphore behaves as a counter: releases count up to the maximum, acquire() succeeds only above zero and at once if it is, the counter never exceeds the maximum, and never more threads hold it than the initial value and the releases allow.",
  "all executions of any number of threads",
  "Interleavings of threads and spurious wake-ups.",
  ["src/modm/processing/rtos/stdlib/semaphore.cpp:17-58", "src/modm/processing/rtos/stdlib/semaphore.hpp:60-88"])
P("C332", "No wake-up of the semaphore is lost",
  "If the semaphore is available and threads wait for it, one of them is awake and will take it.",
  "all executions of any number of threads",
  "Depends on the instant at which a notified thread gets the mutex.",
  ["src/modm/processing/rtos/stdlib/semaphore.cpp:23-52"])
P("C333", "acquire() waits for its timeout",
  "acquire(timeout) returns false only after the timeout and does not wait longer; without an argument it waits as long as it takes.",
  "all executions of any number of threads",
  "Interleavings with other threads over long times.",
  ["src/modm/processing/rtos/stdlib/semaphore.cpp:23-36", "src/modm/processing/rtos/stdlib/semaphore.hpp:63-70"])
P("C334", "The trigger source of a line is the port asked for",
  "After Exti::setTriggerSource(line, port) the line is connected to the port and all other lines are connected as before.",
  "all lines, ports and previous settings, on all supported devices",
  "Fields of registers differ between families; needs each family and all neighbours.",
  ["src/modm/platform/extint/stm32/exti.hpp.in:102-120", "src/modm/platform/extint/stm32/module.lb:52-60"])
P("C335", "The external interrupt calls the handlers of all edges",
  "The interrupt calls the handlers of exactly the lines of its vector that are enabled and pending, once each, and no edge of an enabled line is lost, also if it arrives while handlers run.",
  "all devices, register contents, handlers and edges at any time",
  "Depends on edges that arrive while handlers run.",
  ["src/modm/platform/extint/stm32/exti.cpp.in:20-48", "src/modm/platform/extint/stm32/exti.hpp.in:410-428"])
P("C336", "A connected pin calls its handler and no other",
  "After connect() the handler is called for exactly the edges of this pin in the direction of the trigger; after disconnect() for none; other lines, also of the same vector, work on as before.",
  "all pins, triggers, register contents and edges",
  "Depends on the previous set-up and on edges while connecting.",
  ["src/modm/platform/extint/stm32/exti.hpp.in:68-97", "src/modm/platform/extint/stm32/exti.hpp.in:130-171", "src/modm/platform/extint/stm32/exti.hpp.in:174-205"])
P("C337", "The DMA interrupt calls a handler for each event",
  "The interrupt of a channel calls exactly the handlers for the events that have happened, no event of the channel or of other channels is lost, and the flags of what was handled are cleared.",
  "all flags, handlers, channels and streams, with events at any time while the handlers run",
  "Depends on events that arrive between reading and clearing the flags.",
  ["src/modm/platform/dma/stm32/dma.hpp.in:314-353", "src/modm/platform/dma/stm32/dma_hal.hpp.in:120-151"])
P("C338", "A transfer error disables the channel",
  "In case of an error the handler for errors is called and the channel is disabled; all other channels of the controller go on.",
  "all flags, handlers and channels",
  "Needs transfers on two channels of a controller and an error on the bus.",
  ["src/modm/platform/dma/stm32/dma.hpp.in:83-92", "src/modm/platform/dma/stm32/dma.hpp.in:314-330"])
P("C339", "Flags, start and stop concern only their channel",
  "getInterruptFlags() has exactly the flags of the channel; clearInterruptFlags() clears exactly the flags asked for; start() clears the flags and starts the channel, stop() stops it; other channels are not affected.",
  "all contents of the registers, channels, streams and flags",
  "Positions of the flags differ for each channel; needs all neighbours.",
  ["src/modm/platform/dma/stm32/dma.hpp.in:154-168", "src/modm/platform/dma/stm32/dma.hpp.in:363-375", "src/modm/platform/dma/stm32/dma_hal.hpp.in:120-151", "src/modm/platform/dma/stm32/dma_base.hpp.in:239-263"])
P("C340", "No edge at a pin of RP2040 is lost",
  "Each edge at a pin with a handler is followed by a call of the handler with this edge, or is still latched for the next interrupt.",
  "all sequences of edges and interrupts, with edges at any pins while handlers run",
  "Depends on edges that arrive while handlers run.",
  ["src/modm/platform/extint/rp/int_handler.cpp.in:20-48", "src/modm/platform/gpio/rp/base.hpp.in:176-180"])
P("C341", "The interrupt of bank 0 calls the handlers of all pins",
  "The interrupt calls the handlers of exactly the pins with an enabled trigger that is active, once each, with these triggers.",
  "all 30 pins, contents of the registers and handlers",
  "Needs all pins and combinations of triggers.",
  ["src/modm/platform/extint/rp/int_handler.cpp.in:33-46"])
P("C342", "Connecting a pin of RP2040 concerns only this pin",
  "connect() sets the handler, enables exactly the triggers asked for and drops earlier edges; disconnect() disables all triggers and removes the handler; other pins are not affected.",
  "all pins, triggers, handlers and contents of the registers",
  "Registers are shared by eight pins; needs all neighbours.",
  ["src/modm/platform/extint/rp/int_handler.hpp.in:64-89", "src/modm/platform/gpio/rp/base.hpp.in:156-180"])
P("C343", "The S-curve controller keeps its limits",
  "The output of update() is in the direction of the error, its size is between speedMinimum and speedMaximum, and opposite errors and speeds give opposite outputs.",
  "all errors, speeds, settings with 0 <= minimum <= maximum, and square roots",
  "Infinitely many errors, speeds and settings.",
  ["src/modm/math/filter/s_curve_controller_impl.hpp:88-132"])
P("C344", "The S-curve controller accelerates and brakes as set",
  "The speed grows by at most the increment; outside of the target area it is at most the one from which the target is reached by braking with decreaseFactor; inside at most kp times the distance; isTargetReached() is true exactly within the target area.",
  "all errors, speeds and settings",
  "Infinitely many errors, speeds and settings.",
  ["src/modm/math/filter/s_curve_controller_impl.hpp:88-132", "src/modm/math/filter/s_curve_controller_impl.hpp:81-85"])
P("C345", "The S-curve controller uses the parameters it is given",
  "After the constructor, setParameter() or setSpeedTarget() an update uses the distance in which the speed falls from speedTarget to zero.",
  "all settings and order of calls",
  "A member that was never written usually holds zero in a test.",
  ["src/modm/math/filter/s_curve_controller_impl.hpp:38-53", "src/modm/math/filter/s_curve_controller_impl.hpp:72-77"])
P("C346", "A loop over the buffer of IxM-42xxx visits all packets",
  "The iterator over the data of the buffer visits exactly the packets in it, in order, with their fields, and never reads behind the end of the data.",
  "all sequences of packets with all headers, and all sizes of the buffer",
  "Packets of many forms follow each other in any order; the buffer may end anywhere.",
  ["src/modm/driver/inertial/ixm42xxx_data_impl.hpp:64-122", "src/modm/driver/inertial/ixm42xxx_data.hpp:228-260", "src/modm/driver/inertial/ixm42xxx_impl.hpp:133-147"])
P("C347", "Acceleration and rotation of a packet are the numbers sent",
  "getAccel() and getGyro() are the signed numbers in the packet, with 18 and 19 bits for packets with 20 bits, as the scales 8192 for each g and 131 for each degree per second need.",
  "all values and extensions",
  "More than a million values for each axis.",
  ["src/modm/driver/inertial/ixm42xxx_data_impl.hpp:22-62", "src/modm/driver/inertial/ixm42xxx_data.hpp:135-155"])
P("C348", "The temperature of a packet is the number sent",
  "getTemp() is the signed number of 16 or 8 bits in the packet, whatever was in the object before.",
  "all packets and earlier packets",
  "Depends on earlier packets and on the sign.",
  ["src/modm/driver/inertial/ixm42xxx_data_impl.hpp:86-98", "src/modm/driver/inertial/ixm42xxx_data.hpp:121-131"])
P("C349", "Committing writes all changes to the gate driver",
  "After commit() of Drv832xSpi all registers of the device that can be written are the ones in memory; only accessed registers are written; no change is lost, also one made while commit() runs.",
  "all sequences of changes, registers and values, also from other threads during transfers",
  "Depends on when other threads change registers.",
  ["src/modm/driver/motor/drv832x_spi_impl.hpp:98-122", "src/modm/driver/motor/drv832x_spi.hpp:346-374"])
P("C350", "Transfers to the gate driver change and read one register",
  "writeData() changes exactly the register with the address to the eleven bits of the value; readData() returns the eleven bits of the register and changes nothing.",
  "all registers, values and contents of the device",
  "All combinations of address and data.",
  ["src/modm/driver/motor/drv832x_spi_impl.hpp:125-176"])
P("C351", "Reading from the USB FIFO never exceeds the buffer",
  "Ft245::read(buffer, n) puts the bytes received into the buffer in order, never more than n, and returns when the buffer is full or nothing came for twenty polls.",
  "all lengths and all bytes at all times",
  "Depends on when bytes arrive.",
  ["src/modm/driver/usb/ft245_impl.hpp:56-87"])
P("C352", "Writing to the USB FIFO loses nothing",
  "Both forms of Ft245::write() put exactly the bytes given into the FIFO, in order, none while the chip is busy, and leave the port as an input.",
  "all data and all times for which the chip is busy",
  "Depends on how long the chip is busy after each byte.",
  ["src/modm/driver/usb/ft245_impl.hpp:90-128"])
P("C353", "Configuring a Spartan-3",
  "For each supported Spartan-3, configure() sends the configuration in the memory bit by bit, highest bit of each byte first, until the FPGA is done, and returns true; if the FPGA reports an error, no more bits are sent and it returns false.",
  "all contents of the memory, all supported FPGAs and errors after any number of bits",
  "More than a million bits with all contents; needs the hardware.",
  ["src/modm/driver/fpga/xilinx_spartan3_impl.hpp:105-169", "src/modm/driver/fpga/fpga_type.hpp:30-37"])
P("C354", "Events reach exactly their listeners",
  "After any registrations, deliverPacket() of DynamicPostman calls for an event exactly the listeners registered for it, in the order of registration, with the payload, and returns OK exactly if there are any; it never reads outside the payload.",
  "all sequences of registrations, events and payloads",
  "All sequences of registrations.",
  ["src/modm/communication/xpcc/postman/dynamic_postman/dynamic_postman.cpp:25-43", "src/modm/communication/xpcc/postman/dynamic_postman_impl.hpp:18-63"])
P("C355", "Requests reach exactly the handler of the action",
  "After any registrations, deliverPacket() of DynamicPostman calls for a request exactly the handler registered last for the action of the component, otherwise returns NO_ACTION or NO_COMPONENT; isComponentAvailable() says whether the component has an action.",
  "all sequences of registrations, components, actions and payloads",
  "All sequences of registrations.",
  ["src/modm/communication/xpcc/postman/dynamic_postman/dynamic_postman.cpp:44-71", "src/modm/communication/xpcc/postman/dynamic_postman_impl.hpp:65-102"])
P("C356", "The sampler records every level of its pin",
  "A channel of GpioSampler has the first sample and then one for each run of the interrupt handler after a change, in order, each with time and level, never more than fit; after the handler has run, the last sample is the level of the pin.",
  "all times of changes and runs of the handler",
  "Depends on when the pin changes.",
  ["src/modm/driver/gpio/gpio_sampler.cpp.in:67-117", "src/modm/driver/gpio/gpio_sampler_impl.hpp.in:38-117"])
P("C357", "Differences of samples are times",
  "diff(i) of a channel of GpioSampler is the number of cycles between two samples, up to two cycles, also if the counter overflows between.",
  "all times and levels",
  "All times, including overflows of the cycle counter.",
  ["src/modm/driver/gpio/gpio_sampler.cpp.in:112-117", "src/modm/driver/gpio/gpio_sampler.hpp.in:103-105"])
P("C358", "Writing to the serial RAM",
  "writeData() of SpiRam changes exactly the bytes from the address on to the data, also if the transfer is suspended in between and other bytes are on the bus meanwhile.",
  "all contents, addresses, data up to 32768 bytes and suspensions",
  "All contents and interleavings with other devices.",
  ["src/modm/driver/storage/spi_ram_impl.hpp:73-153"])
P("C359", "Reading from the serial RAM",
  "readData() of SpiRam returns the bytes from the address on and changes nothing; what was written is read again.",
  "all contents, addresses and sizes",
  "All contents and addresses.",
  ["src/modm/driver/storage/spi_ram_impl.hpp:62-70", "src/modm/driver/storage/spi_ram_impl.hpp:110-117", "src/modm/driver/storage/spi_ram_impl.hpp:156-164"])
P("C360", "Bytes written to the trace port arrive in order",
  "With a buffer, the bytes put out by Itm are those accepted by write(), in order, none lost or repeated, and all are put out after enough calls of update() with a free port.",
  "all sequences of write() and update(), all bytes and times at which the port is free",
  "Depends on when the debugger takes words of one, two or four bytes.",
  ["src/modm/platform/uart/cortex/itm.cpp.in:92-102", "src/modm/platform/uart/cortex/itm.cpp.in:143-203"])
P("C361", "Flushing the trace port puts out everything",
  "When flushWriteBuffer() of Itm returns, all bytes accepted were put out; isWriteFinished() says so.",
  "all sequences of calls and times at which the port is free",
  "Depends on when the debugger takes bytes.",
  ["src/modm/platform/uart/cortex/itm.cpp.in:82-90", "src/modm/platform/uart/cortex/itm.cpp.in:115-122"])
P("C362", "Registers of the LED matrix are written in their page",
  "writeRegister() of Is31fl3733 changes exactly the register if it returns true and none otherwise, after any calls and failed transactions.",
  "all sequences of calls, failures, registers and values",
  "Depends on which transactions fail.",
  ["src/modm/driver/display/is31fl3733.hpp:223-268"])
P("C363", "LEDs of the matrix show what was set last",
  "After writeOnOff() and writePwm() of Is31fl3733 each LED is on exactly if it was enabled last and has the brightness set last; no other register is changed.",
  "all sequences of calls, failures and LEDs",
  "All sequences of calls and failures.",
  ["src/modm/driver/display/is31fl3733.hpp:119-156", "src/modm/driver/display/is31fl3733.hpp:202-220"])
P("C364", "Outputs of LP503x show what was set last",
  "After any calls from power-on each output of LP5030 and LP5036 shows the colour and brightness, its own or those of the bank, asked for by the calls that succeeded; calls return whether they succeeded and otherwise change nothing, except that initialize() may have reset the chip.",
  "all sequences of calls, failures, channels and values",
  "All sequences of calls and failures.",
  ["src/modm/driver/pwm/lp503x_impl.hpp.in:27-163", "src/modm/driver/pwm/lp503x_impl.hpp.in:165-182", "src/modm/driver/pwm/lp503x.hpp.in:106-212"])
P("C365", "LP503x always increments addresses",
  "Whatever configuration is given to Lp503x, AutoIncrement stays set, so that writing several registers works; the other bits are those given last.",
  "all sequences of calls, failures and configurations",
  "All sequences of calls and failures.",
  ["src/modm/driver/pwm/lp503x_impl.hpp.in:54-59", "src/modm/driver/pwm/lp503x.hpp.in:98-121"])
P("C366", "Control registers of LIS3DSH are as returned",
  "After any calls getControl…() of Lis3dsh return the values of the control registers of the chip, which are those asked for.",
  "all sequences of calls, failures and masks",
  "Depends on which transactions fail.",
  ["src/modm/driver/inertial/lis3dsh_impl.hpp:26-72", "src/modm/driver/inertial/lis3dsh.hpp:532-590"])
P("C367", "Accelerations of LIS3DSH are as measured",
  "When readAcceleration() of Lis3dsh returns true, getX(), getY() and getZ() are the accelerations measured by the chip with its full scale, after any calls.",
  "all sequences of calls, failures and samples",
  "Depends on which transactions fail and on the order of calls.",
  ["src/modm/driver/inertial/lis3dsh_impl.hpp:26-88", "src/modm/driver/inertial/lis3dsh.hpp:441-483"])
P("C368", "Temperatures of LTC2984 are right and rounded",
  "For each word read from LTC2984 getTemperatureFixed() is its low 24 bits as a signed number, getTemperatureInteger() the nearest whole number of degrees, also below zero, and isValid() the valid bit.",
  "all 2^32 words",
  "2^32 words; the sum and the division are unsigned for negative temperatures.",
  ["src/modm/driver/temperature/ltc2984.hpp:57-91"])
P("C369", "Registers of LTC2984 are as asked for",
  "After any calls other than configure() the memory of LTC2984 has the configurations of channels, the channels chosen and the command asked for, at their addresses and with the high byte first, and is otherwise unchanged, also by ping(); readChannel() and isBusy() return what the chip has; ping() tells whether there is a chip.",
  "all sequences of calls and changes by the chip",
  "All sequences of calls, with one buffer used for data and for transfers.",
  ["src/modm/driver/temperature/ltc2984_impl.hpp:25-38", "src/modm/driver/temperature/ltc2984_impl.hpp:52-211", "src/modm/driver/temperature/ltc2984.hpp:328-336"])
P("C370", "The global configuration of LTC2984 is as asked for",
  "configure() of Ltc2984 stores the rejection and the unit given.",
  "all rejections and units, all states",
  "Depends on what the buffer is used for at the same time.",
  ["src/modm/driver/temperature/ltc2984_impl.hpp:40-50", "src/modm/driver/temperature/ltc2984_impl.hpp:120-150"])
P("C371", "A Spartan 6 is sent its bit stream in order",
  "The bytes clocked out by configure() of XilinxSpartan6Parallel are the beginning of the memory, in order, each once and in whole words; if it returns true they end with the word after which DONE is first high, and eight cycles follow.",
  "all memories, all behaviours of INIT_B and DONE, all sizes",
  "Bit streams have hundreds of thousands of bytes, and DONE may go high after any word.",
  ["src/modm/driver/fpga/xilinx_spartan6_impl.hpp:105-118", "src/modm/driver/fpga/xilinx_spartan6_impl.hpp:140-195"])
P("C372", "The result of configuring a Spartan 6 is right",
  "configure() of XilinxSpartan6Parallel returns true exactly if the FPGA answers to the reset in time, and DONE goes high in a page that begins within the size, without INIT_B having been low before.",
  "all behaviours of INIT_B and DONE, all sizes",
  "All behaviours of the pins over thousands of pages.",
  ["src/modm/driver/fpga/xilinx_spartan6_impl.hpp:36-148", "src/modm/driver/fpga/xilinx_spartan6_impl.hpp:180-195"])
P("C373", "The EEPROM CAT24AA is a memory",
  "After any calls of write() and read() of Cat24Aa with addresses that exist the EEPROM has what was written last to each address, and reading returns it, also after other blocks were used; calls while the EEPROM is storing return false and change nothing.",
  "all sequences of calls and of ends of storing",
  "All sequences of calls; three bits of the address are part of the address on the bus and must not be kept from one call to the next.",
  ["src/modm/driver/storage/cat24aa.cpp:14-49", "src/modm/driver/storage/cat24aa_impl.hpp:23-52", "src/modm/driver/storage/cat24aa.hpp:35-37"])
P("C374", "The port expander MCP23S08 shows what was asked for",
  "After any calls of Mcp23s08 and changes from outside since a reset the expander has the directions, pull-ups and outputs asked for last, all else but IOCON is unchanged, each read() returned the levels of inputs and the values of outputs, and initialize() makes the interrupt pin an open drain for good.",
  "all sequences of calls and changes of levels",
  "All sequences of calls and all levels.",
  ["src/modm/driver/gpio/mcp23s08_impl.hpp:29-104", "src/modm/driver/gpio/mcp23s08.hpp:55-78"])
P("C375", "Registers of TCS3414 are as asked for",
  "After initialize(), setGain(), setIntegrationTime() or writeRegister() of Tcs3414 return true, the register of the sensor has the value asked for, and no other register is changed.",
  "all registers, all values, all states of the sensor",
  "A bus without a sensor accepts whatever is sent; it takes a model of the sensor.",
  ["src/modm/driver/color/tcs3414_impl.hpp:25-40", "src/modm/driver/color/tcs3414.hpp:174-196"])
P("C376", "Colours of TCS3414 are those of the sensor",
  "After readColor() of Tcs3414 returns true, the colours are those of the registers of the sensor, and nothing but the data given to the driver is changed.",
  "all contents of the registers and of the memory",
  "All contents; what lies behind the data is not seen by tests.",
  ["src/modm/driver/color/tcs3414.hpp:128-154", "src/modm/driver/color/tcs3414.hpp:200-202", "src/modm/driver/color/tcs3414_impl.hpp:42-56"])
P("C377", "Registers and colours of TCS3472 are right",
  "Calls of Tcs3472 return whether all their transfers were acknowledged; if so the sensor has the flags, gain, times, filter and thresholds asked for, and nothing else is changed; readColor() gives the colours of the sensor, and reloadInterrupt() clears the interrupt only.",
  "all values, all states, all failures of transfers",
  "All values together with all patterns of failures.",
  ["src/modm/driver/color/tcs3472_impl.hpp:27-140", "src/modm/driver/color/tcs3472.hpp:195-239"])
P("C378", "The modes of TCS3472 enable what they say",
  "Enable_PollingMode, Enable_InterruptMode and Enable_InterruptMode_Waittime given to initialize() of Tcs3472 switch the sensor on and enable interrupts and waiting as they say.",
  "all states of the sensor",
  "The sensor works without waiting as well, only with more power.",
  ["src/modm/driver/color/tcs3472.hpp:121-128", "src/modm/driver/color/tcs3472.hpp:190-197"])
P("C379", "Values of HMC6343 are those of the compass",
  "readAcceleration(), readMagneticField(), readHeading(), readTilt() and readOperationMode() of Hmc6343 return whether both transfers were acknowledged; if so their values are those the compass posts, high byte first, and all others are unchanged; else all are unchanged.",
  "all values, all failures of transfers",
  "The values of two calls overlap; all patterns of failures.",
  ["src/modm/driver/inertial/hmc6343_impl.hpp:133-149", "src/modm/driver/inertial/hmc6343.hpp:128-187", "src/modm/driver/inertial/hmc6343.hpp:306-323"])
P("C380", "The EEPROM of HMC6343 is as asked for",
  "If setDeviationAngle(), setVariationAngle(), setMeasurementRate() and setIIR_Filter() of Hmc6343 return true the EEPROM of the compass has the value asked for; nothing else is changed; getIIR_Filter() and getDeviceId() give what it has or return false.",
  "all values, all failures of transfers",
  "One buffer is used for the two bytes of a value and for the transfers.",
  ["src/modm/driver/inertial/hmc6343_impl.hpp:43-130", "src/modm/driver/inertial/hmc6343.hpp:227-257"])
