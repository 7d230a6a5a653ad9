# Formal model of ZIMO-Elektronik/DCC in Lean 4

## 1. What is modelled

| Part of /repo | Lean module | Remarks |
|---|---|---|
| `address.hpp`, `addresses.hpp` | `Verif/Model/Address.lean` | value is `BitVec 16`; reading a missing second byte is a fault |
| `exor.hpp`, `crc8.hpp` | `Verif/Model/Checksum.lean` | the CRC table is transcribed |
| `instruction.hpp` | `Verif/Model/Instruction.lean` | |
| `utility.hpp` | `Verif/Model/Utility.lean` | every `make_*_packet`, `scale_speed`, word conversions |
| `bidi/*.hpp` | `Verif/Model/Datagram.lean`, `Verif/Model/BidiTiming.lean` | both tables transcribed |
| `rx/backoff.hpp`, `rx/timing.hpp` | `Verif/Model/Backoff.lean`, `Verif/Model/RxTiming.lean` | `rand()` is an argument |
| `tx/*.hpp` | `Verif/Model/Tx.lean`, `Verif/Model/TxPreempt.lean` | deque as a ring of N+1 slots, `_packet` as a slot pointer |
| `rx/crtp_base.hpp` | `Verif/Model/Rx*.lean` | every member function |
| `src/rmt_dcc_encoder.c` | `Verif/Model/Rmt.lean` | driver memory as a budget per session |
| `examples/repl` | `Verif/Model/Repl.lean` | the three threads as steps in any order, without the data races |
| `examples/stm32` | `Verif/Model/Stm32.lean` | both programs; timers as the reference manual describes them, without the HAL |
| `examples/esp32` | `Verif/Model/Esp32.lean` | the loop that sends idle packets, with the output of the RMT channel |

Not modelled: build system, the `decoder.hpp`/`command_station.hpp`
concepts (they only constrain types), ESP-IDF and the RMT
peripheral, real time, compiler and CPU behaviour.

## 2. Modelling decisions

* **Bytes** are `BitVec 8`, address values `BitVec 16`, CV addresses `BitVec 32`
  (so wrap-around in register mode is visible).  `size_t` counters are `Nat`;
  wrap-around of a 64-bit counter is not modelled.
* **Packets** are `List Byte`; capacities (`DCC_MAX_PACKET_SIZE`, queue sizes)
  are explicit checks whose violation is a fault.
* **Undefined behaviour and assertions** are a distinct outcome: functions that
  can hit one return `Except Fault α`.  Faults: out-of-range read of a packet or
  span, push on a full container, failed `assert`.
* **The user class** (`Decoder` concept) is an arbitrary oracle: each call is
  appended to an event trace and each answer is a function of the whole trace so
  far, so a theorem that quantifies over the oracle covers every user class,
  including stateful and inconsistent ones.  Optional concepts (high current,
  east/west, async read/write) are Boolean flags of the oracle.
* **`rand()` and the clock** are operation arguments, so quantifying over
  operation lists covers every random sequence and every clock.
* **Interrupts**: `receive`, `biDiChannel1`, `biDiChannel2` may preempt
  the thread.  One machine interleaves them with the steps of `execute` (C56),
  a finer one with every single access the thread makes to the object (C71).
  In a command station `transmit` preempts `init` and `packet` (C82).
* **Library containers** (`ztl::inplace_vector`, `ztl::inplace_deque`) are not in
  the sandbox.  They are modelled by their documented behaviour; the deque used
  by the transmitter is modelled as a ring of N+1 slots because the code's
  correctness depends on this layout.  `push_back` writes the slot before it moves
  the index (C82).  `ztl::lerp` is modelled as
  `y0+(x-x0)*(y1-y0)/(x1-x0)` in truncating integer arithmetic.

## 3. Trusted base

* Lean 4.33.0's kernel; axioms `propext`, `Classical.choice`, `Quot.sound` only.
* The reading of the C++ source: every model definition cites file and lines.
  As a check `Verif/Props/RepoTests.lean` restates all 57 tests of `tests/` with
  the model in place of the code (random values are replaced by the ends of their
  range and some between, long repetitions shortened); each expectation holds.
* The container, `lerp`, `make_mask` and ESP-IDF encoder behaviour named above.
* C++ readings that decide something: `_addrs.received = {}` calls the assignment
  of a value (identity conversion) and not that of an `Address`; `_tos_deque` is
  filled through `*end(_tos_deque)` before the `push_back()` without argument,
  which is taken to keep the slot; `resize` of an `inplace_vector` keeps elements
  that were written through iterators before; the two `readCv` calls in
  `(readCv(65296) << 8) | readCv(65297)` of `init` come in the order written
  (C++ leaves it open; only the order of two reads in the trace depends on it).
* The CMake default values for the configuration macros (theorems quantify over
  the capacities where this makes a difference).

## 4. Plan per property

Method abbreviations: *table* = `decide +kernel` over a complete finite table,
*ind* = induction, *inv* = invariant over all operation histories, *ref* =
refinement to an abstract specification, *neg* = the code violates the property;
negation with a concrete witness plus a `_partial` theorem.

| Id | Model | Method |
|---|---|---|
| C01-C03 | Address | bit-vector reasoning, table for the first byte |
| C04, C05 | Utility, Checksum | ind over bytes, one lemma for the common builder tail |
| C06, C07 | Checksum | table for one byte, ind over messages, linear algebra over GF(2) |
| C08 | Utility, Checksum | from C07 |
| C09-C11 | Datagram | table for one symbol, ind over datagrams, arithmetic for packing |
| C12, C13 | Utility | bit-vector reasoning; table over all legal steps |
| C14 | Instruction, Utility | table over instruction bytes |
| C15, C16 | Tx timings | ind over bytes, inverse function |
| C17, C18, C22 | Tx | ref to an abstract FIFO |
| C19, C20 | Tx | inv plus trace specification |
| C21 | Tx | neg (idle packet), partial for queued packets |
| C23, C26, C31 | Rx link layer | ind over bits and bytes |
| C24 | Tx + Rx | simulation between both machines |
| C25, C27, C28 | Rx | inv |
| C29, C30, C54, C55, C67 | Rx | neg + partial |
| C32-C38, C60, C63, C65, C68 | Rx execution | case analysis on the instruction; neg for C38, C60, C68 |
| C39, C40, C64, C66 | Rx CV access | ind over run length; neg for C66 |
| C41, C42, C44 | Rx | case analysis; neg for the last clause of C42 |
| C43 | Rx | trace inv; neg for logon |
| C45 | Rx + memory CV store (written synchronously, or asynchronously and stored at once) | inv |
| C46-C50 | Rx BiDi | inv; C47 neg |
| C51 | Backoff | ind |
| C52, C53 | Rx logon | case analysis; C53 neg |
| C56 | Rx micro-steps | inv over interleavings |
| C57, C58 | Rmt | inv over sessions; neg for a lost start bit and for the end bit |
| C69 | Rmt + Rx link layer | composition of C57 with the simulation of C23 |
| C59 | Rx | neg |
| C61, C62 | Rx | case analysis |
| C70 | Rx link layer + BiDi | neg; inv between packets |
| C71-C73 | Rx, single accesses | inv and rely-guarantee over interleavings; C72, C73 neg |
| C74 | Utility | bit layouts as strings, compared bit by bit |
| C75 | TxBase, RxLink, RxExec | composition: station queue, waveform, framing, decoder queue, calls; induction over the calls |
| C76 | RxLink, RxExec, Tx | calls with time stamps and a budget of late ones; potential (least time to the end of a packet), shortest packet with a checksum; neg |
| C77 | Tx, RxLink, RxExec | track signal seen by an input, segments; measured times only up to their bit; neg |
| C78 | Repl, Tx, RxMachine | session projected onto station history and time stamped calls, C76; sessions; neg |
| C79 | RxExec, RxCv, Tx | ref to an abstract device over histories, C24, C27; induction over requests; neg |
| C80 | RxExec, RxCv, RxBidi | ref to an abstract device over histories; induction over requests |
| C81 | RxLink, RxBidi, RxExec, RxCv, Tx | two runs with the same durations, C76, C80; neg |
| C82 | Tx, single accesses | simulation by calls that are not preempted; neg for the configuration as a whole |
| C83 | Tx, Rx, Settle | what a station sends when it gets no more packets, counted in calls of transmit; C76, C77 |
| C84 | Stm32, TxPreempt, Rx | C82 for the calls of the main loop, C83 for the rest; captured edges are changes of polarity |
| C85 | Stm32, RxCv | C40 for the class of the example; neg for bits |
| C86 | Esp32, Rmt + Rx link layer | symbols to levels to times between changes; induction over packets, the half bit behind a packet by cases |
| C87 | Rx service mode and operations mode + Tx | C79 for the programming track, then C75; the address the CVs hold as an invariant of the requests |
| C88 | Rx automatic logon, operations mode and BiDi | one round per packet; the state as that of an abstract guest (selected, number, backoff), induction over the rounds |
| C89 | Rx automatic logon, CVs, operations mode | C88 with the CVs stored as part of the invariant, then fast logon as one more round |
| C90 | Rx operations mode, CVs; Tx | abstract locomotive in `Spec/Engine.lean`; one step from `exec_cases`, then induction over the history |
| C91 | Tx timings, Rx receive | the disturbed bits written as another frame for each kind of bit, then the lemmas on frames of C26 |
| C92 | Rx receive | parser of half bits in `Spec/Deframe.lean`; the receiver fed with half bits, induction over their number |
| C93 | Tx bidiTiming, Rx biDiChannel1/2, bidi/timing, bidi/baudrate | outputs as a function of time in `Spec/Window.lean`; C19's description of the signal cut at the call, C49 for the lengths |
| C94 | Rx adrHigh, adrLow, appAdr, datagram, biDiChannel1/2 | a detector as a function on received words in `Spec/Detector.lean`; on top of C46 (words of channel 1) and C48 (words of channel 2); addresses stay below 16384 (`Lemmas/RxAddrRange.lean`) |
| C95 | Rx, all functions | two executions related by `Alike` (`Spec/Independence.lean`), one lemma for each function of the receiver (`Lemmas/Independence.lean`); the answers of the user's class may depend on all calls but transmissions |
| C96 | Rx init, all functions | corollary of C95 with the relation "same memory of CVs" and C45 (the configuration is the one in the CVs) |
| C97 | Rx automatic logon, CVs | rounds with any logon address (those of C88 need one that was assigned), with the writes of logonStore as part of the result |
| C98 | Rx automatic logon and BiDi | C88 with sequences of packets divided at the SELECT |
| C99 | Rx, all functions; threads | the programs of `Model/RxThread.lean` on the core of a state (`Spec/Serial.lean`): one lemma `Follows` for each function says that it does the same on states with the same core; simulation over the interleaving; `C99_engine` combines it with the steps of C90 |
| C100 | Rx, all functions | the simulation of C95 with a second mode in which reads, acknowledgements and callbacks are not noticed and both kinds of writes count as the same |
| C101 | Rx, all functions | simulation: the relation IsDecoder is kept by every call; execute is followed branch by branch, all other calls leave the abstract state alone |
| C102 | Tx, Rx, all functions | composition of C74, C77 and C27 with C101 |
| C103 | Tx, Rx, all functions | C101 and C102 with the state of each packet (received, answered, executed); then C80 for the requests |
| C104 | Rx service mode, Tx | the abstract decoder of C101 executing register mode packets; C102 for the track; neg by evaluation |
| C105 | Rx instructions, Tx | which events each instruction adds; lift to histories; C83 for the track; neg by evaluation |
| C106 | Rx instructions | every index read is below the length of the instruction; neg by evaluation |
| C107 | Rx instructions, Tx | bit by bit what a call sets; last setter of a list; C77 and C83 for histories |
| C108 | Rx receive, Tx transmit | suffixes of the wave of a packet; RxHeard for the packets behind; the station's segments extend those of an earlier moment |
| C109 | Tx, Rx, Settle | the packets behind an earlier moment begin with those of the queue then; time of each packet; C83 |
| C110 | Tx, Rx, Late | first moment at which the receiver waits for a preamble; C108 from there on |
| C111 | Tx, Rx, Visit | logon dialogue (C88) at the packets heard of the track signal (C77), cutout by cutout |
| C112 | Tx, Rx, Quality | the assembly drops nothing of the signal of a station (C77), then C55 |
| C113 | Tx, Rx, Late | the segments of a signal heard up to one call of `transmit` (C77) and from a later one on (C110) are the same; anything in between |
| C114 | RxLogon, Address | the call of `receive` that completes SELECT or LOGON_ASSIGN; numbers read off the bytes as RCN-218 prints them, not with `decode_address` |
| C115 | Tx, Rx, Late | C110 for the packets and C107 for what they set, put together |
| C116 | Rx, Tx | spacing of packets (C76) ind over batches; neg for the loop |
| C117 | Rx | answers in cutouts (C88) reduced to the reference backoff (C51); neg for equal draws |
| C118 | Rx | reference of C50 cut at the search: an answer waiting stays as it is; neg an hour later |
| C119 | Rx | reference queue of C46 cut at the change: what waits, at most two words, comes first; neg |
| C120 | Rx | reference queue of C48 cut at the report; two words leave per cutout; neg: invariant of the full queue that is never blocked |
| C121 | Tx | trace of the cutout calls against whole cutouts, with init anywhere; neg |
| C122 | Rx | invariant of all steps while logon is disabled; neg |
| C123 | Rx | every step of the link; neg |
| C124 | Rx | case analysis on top of C35 and C36; neg |
| C125 | Rx | on top of C65 and C32; neg |
| C126 | Rx | on top of C44 and C35; neg |
| C127 | Rx | case analysis of the logon step; neg |
| C128 | Rx | exact result of one packet on top of C127; neg |
| C129 | Rx + memory CV store | inv; neg |
| C130 | Rx + memory CV store | inv |

No property of the list is inexpressible in the model.

## 5. How the theorems are organised

* `Verif/Model` transcribes the code, `Verif/Spec` holds the vocabulary of the
  statements (what a packet looks like on the track, which address is meant,
  which packet is at the front, ...), `Verif/Lemmas` the proofs, `Verif/Props` the
  property theorems `Cxx_...` with an `example` that meets their hypotheses.
* `Cxx_..._partial` proves part of a property; `Cxx_..._false` refutes a property
  (or shows that a hypothesis of another theorem is needed) with a witness that
  is run by the kernel.
* The receiver's theorems quantify over `Reachable` states or over whole lists of
  calls (`RxOp`), the transmitter's over `TxOp`, the preemption theorems over
  lists of `Micro` steps or of `Beat`s (single accesses and interrupts), the RMT
  theorems over packets and memory sizes.
* `decide +kernel` is used for complete tables (a byte, a table of 256 entries)
  and for concrete witnesses and examples.  No theorem about all inputs rests on a
  sample.

## 6. What the model leaves out

* Preemption is modelled between any two accesses of the thread to the object
  (C71).  One access is one member, one `Address`, packet or array, one container
  operation or one call of the user's class.  An interrupt in the middle of such
  an access (a packet half compared, a deque half popped) is not modelled.
  Members are read and written in the order of the source; a compiler may
  reorder accesses to members that are not `volatile` or atomic.  Interrupts do
  not preempt each other.
* User callbacks return to the library; they do not call its methods (no
  re-entrance), do not throw and do not end the program.  A user class is a
  deterministic function of the calls made to it so far.
* The callback of an asynchronous method is called after the method returned, at
  any time.  A class that calls it before returning behaves like a synchronous one.
* Copies of receiver or transmitter objects, and derived classes that change
  protected members.
* 64-bit counters do not wrap.  The clock may jump in both directions.
* User classes derived from `Dyn` with other subindices than the library's
  (they queue nothing).
* The RMT driver: `rmt_copy_encoder` and `rmt_bytes_encoder` write what fits,
  remember where they stopped, and report COMPLETE and MEM_FULL independently
  of each other, as documented; the hardware and its interrupts are left out.
* The output of an RMT channel (C86): the symbols one after the other, and the
  level `eot_level` in the pause until the next packet begins.
* The boards of `examples/stm32`: interrupts are served in time, a timer overflows
  `ARR + 1` ticks after the last overflow, and an edge is captured with the time
  since the last one.  `HAL_Delay` and printing only take time.
* What happens after undefined behaviour or a failed assertion: a run ends
  there.

## 7. Where the code does not do what the property says

Each line is a theorem `..._false` (or the theorem named) with a concrete
witness; the part that holds is `..._partial`.

| Id | Behaviour of the code |
|---|---|
| C01 | long addresses of 10240 and more are not decoded as long addresses (`C01_long_above_10239_lost`) |
| C21 | idle packets ignore the configured preamble and bit durations (`C21_idle_ignores_config`) |
| C29 | short packets make the receiver read behind the packet: addressed packets, logon packets, channel 2 while the next packet starts (or after an invalid packet with own address 0), and `init` with CV1 in 192..231 |
| C30 | the 19th byte of a packet is pushed onto a full buffer |
| C38 | F31-F24 are reported with the mask of F7-F0 |
| C42 | register access with page register 0 wraps around to the top of the CV addresses |
| C43 | storing a logon address writes CVs of a locked decoder |
| C47 | consist control replaces the pending answer of another packet; an asynchronous callback answers whatever packet is current when it comes |
| C53 | CV65300 is stored without the marker of long addresses, so fast logon restores another address |
| C54 | two logon packets without a cutout between them fail an assertion |
| C55 | the quality of service can become 255 |
| C57 | a start bit is lost if the memory is full behind a byte; `data_size` 0 reads a byte |
| C58 | end bit durations of 1..51 us are accepted |
| C59 | `disable` does not stop reception: the flag is never read |
| C60 | `eastWestDirection` reports west for neither direction |
| C61 | temperature and voltage wrap around outside their ranges |
| C66 | the same service mode request is not answered again unless another one came in between |
| C67 | see C29, `init` |
| C68 | the long address 0 is a broadcast |
| C69 | ZIMO 0 behind ten or more ones is taken for a start bit; an end bit below 52 us leaves the packet incomplete |
| C70 | an invalid packet clears only the value of the received address, so the decoder may transmit after it |
| C72 | an answer to the CV packet before is transmitted if channel 2 comes between two statements |
| C73 | a packet with a wrong checksum is accepted if its end bit comes while `disable` is in `reset` |
| C76 | packets with ten preamble bits may come so fast that `execute` every 5 ms never executes one |
| C78 | the prompt sends to short addresses only; commands typed fast get lost; the station's thread may call an empty function; address 254 with `read_cv_byte` reads behind an array |
| C79 | a station whose queue runs empty ends service mode by an idle packet; direct mode packets are then commands for locomotives 112 to 127 |
| C80 | a register mode write in service mode leaves the value waiting from before; a read request repeated after service mode is answered with the old content |
| C81 | after an invalid packet several decoders without consist may transmit in channel 2 at once (C70) |
| C82 | while `init` runs, `transmit` may use a configuration mixed from the old and the new one |
| C85 | the decoder of `examples/stm32` acknowledges that a bit is 0 whatever its CVs are |
| C86 | no packet of `examples/esp32` arrives if the driver pauses for 30 us to 9940 us between packets |
| C88 | a decoder takes the address assigned to one of another manufacturer with the same unique ID |
| C89 | after a restart and fast logon a locomotive ignores its address n (256 or more) and obeys n / 256, as do all others with the same quotient; with n below 256 it obeys its own address instead |
| C90 | a locomotive in a consist still obeys speed commands to its own number; CV29 bit 0 is not applied to commands to the consist or to all locomotives; a consist control packet leaves CV20 alone, so with CV20 = 2 the packet for consist 5 leads into consist 205 |
| C91 | one disturbed bit can make a packet of another: a function command to locomotive 6 drives locomotive 3; or a packet cut short that the decoder reads behind its end |
| C94 | an assigned address of 128 or more that is the number of the consist as well is announced modulo 128 as a consist (1000 is shown as 104); `raw` values with a subindex of 64 or more are transmitted as other values (0 with subindex 64 as 1 km/h) |
| C96 | the count of equal CV packets does not survive switching off: a CV packet received once before and once after is not executed (harmless, but the only difference to a decoder that was not switched off, besides page register, service mode and automatic logon) |
| C97 | with every fast logon the stored number is divided by 256, so it is 0 after the second; a decoder whose own short address is that quotient gets the long address with the same number, and CV1 has no effect any more |
| C98 | a decoder that has been selected once is silent after every LOGON_ENABLE until it is switched off, also if the station is another one or the session ID has moved on by more than four |
| C99 | a LOGON_ASSIGN that arrives while `logonStore` writes leaves the high byte of the old and the low byte of the new address in CV65300 and CV65301 (CV17 and CV18 alike) until the next packet is executed |
| C100 | `cvWrite` calls `init()` as soon as an asynchronous method returned; if the class stores later, the decoder keeps its old address and configuration although the write was acknowledged |
| C104 | writing the page register is not acknowledged; a reset packet to all on the main followed by a speed command for one of the locomotives 112 to 127 makes all decoders access CVs: a command for locomotive 124 writes CV29 of all others |
| C105 | a stop to everyone is ignored in service mode and does not end it; a reset packet to everyone brings running locomotives into service mode and tells them no speed; with 14 speed steps a stop to everyone switches F0 |
| C106 | the length of a packet is not compared with its instruction, so a packet with a byte too few takes its check byte for data: `03 3F 3C` runs locomotive 3, `03 12 11` puts it into consist 17, `03 EC 02 ED` twice writes CV3, `03 F2 F1` writes CV23 |
| C116 | `while (decoder.execute());` does not empty the queue: `execute` returns false for a packet that is not for the decoder |
| C117 | decoders that draw the same random numbers never log on one by one; the library does not seed `rand()` |
| C118 | an answer to a tip-off search that finds no cutout waits: an hour later it is transmitted after a stop to all locomotives, with the seconds of the search |
| C119 | the pair of address datagrams queued for the old address is still transmitted after the address changed |
| C120 | a program that hands three or more values to `datagram` once before every cutout is never heard with the third |
| C121 | `init` without BiDi during a cutout: `biDiEnd` is never called; `init` with the other polarity within a bit: both halves have the same polarity |
| C122 | a decoder that was assigned an address keeps it when automatic logon is switched off, and ignores its own |
| C123 | a locomotive that runs the other way round turns when it is assigned an address for its own, and turns back at the next `init` |
| C124 | a locomotive that runs the other way round takes a broadcast speed the wrong way (see also C90) |
| C125 | a consist control packet for everybody puts all locomotives into one consist, one for the number of a consist moves all its members |
| C126 | a locomotive in a consist with its own number cannot be programmed on the main and ignores the direction in CV19 |
| C127 | once an address is assigned SELECT is not answered any more |
| C128 | a decoder whose address was taken back (LOGON_ASSIGN with 0) answers neither LOGON_ENABLE nor SELECT until it is switched off |
| C129 | a locomotive taken out of a consist by LOGON_ASSIGN keeps the direction mark of the consist, so a broadcast makes it run the wrong way until the next `init` |

Further behaviour that is part of the model and of the statements, though it may
surprise: `decode_instruction` never returns `Logon`; unknown and accessory
addresses encode to no bytes; the manufacturer ID in LOGON_SELECT and
LOGON_ASSIGN is not compared; a LOGON_ASSIGN with top bits other than 11 is
decoded from a first byte below 192; writing CV250..253 does not refresh the
decoder's ID; a pair of address datagrams queued before channel 1 is disabled is
still sent; the packet that ends service mode is not executed; the second half
of a start bit and half bits of invalid duration are not checked; CV access by
broadcast is executed; a 14-step emergency stop does not set F0.

## 8. Testing the theorems

`seeded/LOG.jsonl` records edits of the model made in a scratch copy: the
definition, the edit, the claim it breaks, the theorems that no longer build and,
where an edit survived, what was tightened.  When a lemma fails, everything that
imports it is not built; the log names the theorems where the build stopped.  Entries
with `modules_built` were made with the modules of the properties concerned only;
further theorems may fail in the other modules.
