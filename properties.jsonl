{"id": "C01", "title": "Address encode/decode round trip", "statement": "For every address a packet can carry (broadcast, short 1-127, long 0-10239, data transfer, automatic logon, idle/system) decode_address applied to the bytes written by encode_address, whatever follows them, returns the same value and type; encode_address advances by exactly one byte (two for long). A long address of 10240 or more does not survive the round trip. An accessory address or one of unknown type is written as nothing; a reserved one is an assertion failure.", "quantifier": "every address value and type, every byte string following the address", "why_tests_cant": "the existing test samples five addresses; the claim ranges over all 16-bit values and all trailing bytes", "anchors": ["include/dcc/address.hpp: decode_address, encode_address"]}
{"id": "C02", "title": "Address equality is an equivalence that identifies short and long", "statement": "operator== on addresses is reflexive, symmetric and transitive; a short and a long address are equal exactly when their values are equal, any other two addresses exactly when value and type are equal; the reversed flag never matters.", "quantifier": "all triples of addresses (value, type, reversed)", "why_tests_cant": "three literals are tested; transitivity quantifies over all triples", "anchors": ["include/dcc/address.hpp: Address::operator=="]}
{"id": "C03", "title": "decode_address partitions the address space", "statement": "decode_address classifies every possible first byte into exactly the type RCN-211 assigns to it (0 broadcast, 1-127 short, 128-191 accessory, 192-231 long, 232-252 reserved, 253 data transfer, 254 logon, 255 idle), the value of a long address is always below 10240, and the second byte is read only for 192-231.", "quantifier": "every first byte and every following byte", "why_tests_cant": "65536 byte pairs, five are tested", "anchors": ["include/dcc/address.hpp: decode_address"]}
{"id": "C04", "title": "Every packet builder produces a checksum-valid packet that fits", "statement": "Each make_*_packet function, for all argument values, returns a packet of the documented length (between 3 and DCC_MAX_PACKET_SIZE bytes) whose bytes exclusive-or to zero.", "quantifier": "all argument values of every make_*_packet overload", "why_tests_cant": "the argument space is unbounded for tests (addresses x CV x data x variadic functions)", "anchors": ["include/dcc/utility.hpp: make_*_packet", "include/dcc/exor.hpp: exor"]}
{"id": "C05", "title": "The packet checksum detects every corruption confined to one byte", "statement": "If a packet has a valid checksum, then changing any single byte of it to any different value makes the checksum invalid; so a receiver that accepts only checksum-valid packets never executes a packet with one damaged byte.", "quantifier": "every packet, every byte position, every replacement value", "why_tests_cant": "all packets times all positions times all replacement values", "anchors": ["include/dcc/exor.hpp: exor", "include/dcc/rx/crtp_base.hpp: receive"]}
{"id": "C06", "title": "The CRC8 table implements the Dallas/Maxim polynomial", "statement": "crc8 over any byte string equals the bit-serial CRC with polynomial x^8+x^5+x^4+1 (0x31, reflected, initial value 0).", "quantifier": "every byte string of every length", "why_tests_cant": "one vector is tested; the claim is about all messages", "anchors": ["include/dcc/crc8.hpp: crc8, detail::crc8_lut"]}
{"id": "C07", "title": "CRC8 self-check and error detection", "statement": "Appending crc8(m) to any message m gives crc8 zero; crc8 is linear over exclusive-or of equal-length messages; a message and its corruption have different CRCs whenever the corruption is confined to a burst of at most 8 bits (in particular to one byte) or flips an odd number of bits.", "quantifier": "every message, every corruption pattern of the stated kinds", "why_tests_cant": "messages of every length and all burst positions", "anchors": ["include/dcc/crc8.hpp: crc8"]}
{"id": "C08", "title": "LOGON_SELECT and LOGON_ASSIGN packets carry a valid CRC", "statement": "For every manufacturer id, unique id, subcommand and address, crc8 of the packets made by make_logon_select_packet / make_logon_assign_packet (without the trailing checksum) is zero, so the receiver's CRC gate accepts them.", "quantifier": "all manufacturer ids, unique ids, subcommands, addresses", "why_tests_cant": "2^48 and more argument combinations", "anchors": ["include/dcc/utility.hpp: make_logon_select_packet, make_logon_assign_packet", "include/dcc/rx/crtp_base.hpp: executeHandlerMode"]}
{"id": "C09", "title": "The BiDi 4-of-8 code is a constant-weight code with a correct decoder", "statement": "Every encoded byte has exactly four one bits, different 6-bit values have different codes, decode_datagram inverts encode_datagram on datagrams of 6-bit values of any length, and no code word equals an ACK or NACK.", "quantifier": "every datagram of every length", "why_tests_cant": "tests cover four datagrams", "anchors": ["include/dcc/bidi/datagram.hpp: encode_lut, decode_lut, encode_datagram, decode_datagram, acks, nack"]}
{"id": "C10", "title": "BiDi datagram round trip", "statement": "For each datagram size (12, 18, 24, 36, 48 bit), every ID below 16 and every payload that fits, make_data(decode_datagram(encode_datagram(make_datagram(id, data)))) returns the ID followed by the payload bits, and all elements of the datagram are 6-bit values.", "quantifier": "all sizes, ids and payloads that satisfy the documented assertion", "why_tests_cant": "up to 2^44 payloads per size", "anchors": ["include/dcc/bidi/datagram.hpp: make_datagram, make_data"]}
{"id": "C11", "title": "make_datagram with and without ID agree", "statement": "make_datagram<I>(id, d) equals make_datagram<I>(id << (bits-4) | d) for every id below 16 and payload d that fits.", "quantifier": "all sizes, ids, payloads", "why_tests_cant": "four literals are tested", "anchors": ["include/dcc/bidi/datagram.hpp: make_datagram"]}
{"id": "C12", "title": "Word/byte conversion round trips", "statement": "data2uint16 inverts uint16_2data and data2uint32 inverts uint32_2data, in both directions, and exactly 2 / 4 bytes are written (most significant first).", "quantifier": "all 16 and 32 bit words and all byte strings", "why_tests_cant": "2^32 values; not tested at all", "anchors": ["include/dcc/utility.hpp: data2uint16, data2uint32, uint16_2data, uint32_2data"]}
{"id": "C13", "title": "Speed scaling is a faithful monotone map onto 0..255", "statement": "For 14, 28 and 126 steps: scale_speed maps 0 to 0, the maximum step to 255, all scales share the same value at step 1, results of legal steps lie in 0..255, and the map is strictly increasing, so distinct speed steps stay distinct.", "quantifier": "every legal speed step of every scale", "why_tests_cant": "monotonicity is a relation over all pairs of steps", "anchors": ["include/dcc/utility.hpp: scale_speed"]}
{"id": "C14", "title": "Instruction classification of built packets", "statement": "decode_instruction applied to a packet built for any short, long or broadcast address returns the instruction class of the builder that made it, for all payload arguments.", "quantifier": "all addresses below 10240, all builder arguments", "why_tests_cant": "two addresses are tested, two past bugs were here (#27)", "anchors": ["include/dcc/instruction.hpp: decode_instruction", "include/dcc/utility.hpp: make_*_packet"]}
{"id": "C15", "title": "Timings describe exactly the packet", "statement": "bytes2timings produces 2*num_preamble one-half-bits, then for each byte a zero start bit and its eight bits most significant first, then a one end bit, each bit as two half-bits of equal configured duration; the result never exceeds the capacity of Timings; and the byte sequence can be recovered from the timings whenever the two durations differ.", "quantifier": "every byte string up to DCC_MAX_PACKET_SIZE, every configuration", "why_tests_cant": "unbounded combinations; no tx tests exist", "anchors": ["include/dcc/tx/timings.hpp: bytes2timings, Timings"]}
{"id": "C16", "title": "Accepted configurations stay in tolerance", "statement": "With a configuration accepted by tx init, every half-bit produced for a queued packet is within the command station tolerance of RCN-210 (1: 56-60us, 0: 97-114us), classifies as the intended bit at the receiver, and the preamble has 17 to 30 ones.", "quantifier": "all accepted configurations and all packets", "why_tests_cant": "all combinations of configuration and data", "anchors": ["include/dcc/tx/crtp_base.hpp: init", "include/dcc/rx/timing.hpp: time2bit", "include/dcc/tx/timing.hpp"]}
{"id": "C17", "title": "The transmitter is a FIFO: every accepted packet is sent once, whole, in order", "statement": "For every interleaving of packet()/bytes() with transmit(), the sequence of packets put on the track, idle packets removed, is exactly the sequence of accepted packets in order (the last possibly still incomplete); in particular the packet being transmitted is never altered by packets queued meanwhile, although it is referenced after having been popped.", "quantifier": "every interleaving of queueing and transmit calls of any length, every deque size", "why_tests_cant": "histories of unbounded length; the code comment calls out the dangling slot as delicate", "anchors": ["include/dcc/tx/crtp_base.hpp: transmit, bytes, packet"]}
{"id": "C18", "title": "Idle packets fill the gaps", "statement": "Whenever a packet (and its cutout) has ended and nothing is queued, transmit continues with a complete idle packet; transmit always returns a positive duration, so the track signal never stops.", "quantifier": "every history of calls", "why_tests_cant": "every history", "anchors": ["include/dcc/tx/crtp_base.hpp: transmit, _idle_packet"]}
{"id": "C19", "title": "BiDi cutout schedule", "statement": "If BiDi is enabled, after each packet transmit returns exactly five cutout phases whose cumulative times are 29, 80, 193, 454 and 471us and whose callbacks are, in order, track outputs (half a one bit), outputs off plus biDiStart, biDiChannel1, biDiChannel2, biDiEnd; within the tolerances of RCN-217; if BiDi is disabled no cutout callback ever happens.", "quantifier": "every history of calls, every configuration; configurations made later differ in durations and preamble only (C121 has the others)", "why_tests_cant": "ordering over unbounded histories", "anchors": ["include/dcc/tx/crtp_base.hpp: bidiTiming, transmit", "include/dcc/bidi/timing.hpp"]}
{"id": "C20", "title": "Track polarity and DC balance", "statement": "While a packet is transmitted the outputs are always complementary, the first half of each bit has the configured polarity and the second half the opposite one for the same duration, so each packet is DC free; setting invert exactly swaps the outputs.", "quantifier": "every packet, configuration and history; configurations made later differ in durations and preamble only (C121 has the others)", "why_tests_cant": "a relation over whole histories", "anchors": ["include/dcc/tx/crtp_base.hpp: packetTiming"]}
{"id": "C21", "title": "Configured preamble and durations apply to everything transmitted", "statement": "After init(cfg), all packets transmitted (including idle packets) use cfg's number of preamble bits and bit durations.", "quantifier": "all configurations and histories", "why_tests_cant": "needs every configuration; false for idle packets", "anchors": ["include/dcc/tx/crtp_base.hpp: _idle_packet, init"]}
{"id": "C22", "title": "A full transmit queue rejects without side effects", "statement": "packet() on a full queue changes nothing, the queue never holds more than DCC_TX_DEQUE_SIZE packets, and a non-full queue always accepts.", "quantifier": "every history", "why_tests_cant": "every reachable state", "anchors": ["include/dcc/tx/crtp_base.hpp: bytes"]}
{"id": "C23", "title": "Any legal transmitter is decoded by the receiver", "statement": "For every checksum-valid packet of 3 to DCC_MAX_PACKET_SIZE bytes that is not a logon packet and every accepted transmit configuration, feeding the packet's timings to receive() of a synchronised receiver with room in its queue appends exactly this packet to the queue, sets packetEnd() and the received address, and leaves the receiver synchronised.", "quantifier": "all packets, all accepted configurations, all synchronised receiver states", "why_tests_cant": "the tests feed a handful of packets with one configuration", "anchors": ["include/dcc/rx/crtp_base.hpp: receive", "include/dcc/tx/timings.hpp: packet2timings"]}
{"id": "C24", "title": "Command station to decoder, whole histories", "statement": "For every interleaving of packet() and transmit() on a command station whose transmit durations (including the BiDi cutout phases) are passed to receive() of a decoder, with execute() called often enough, the decoder's queue receives exactly the packets put on the track, in order, none lost, duplicated or altered.", "quantifier": "every history of the command station, BiDi on or off, every accepted configuration", "why_tests_cant": "unbounded histories across two components", "anchors": ["include/dcc/tx/crtp_base.hpp: transmit", "include/dcc/rx/crtp_base.hpp: receive", "examples/repl/src/main.cpp"]}
{"id": "C25", "title": "Only checksum-valid complete packets are ever executed", "statement": "Whatever sequence of times is passed to receive() (noise included), every packet in the receive queue has at least three and at most DCC_MAX_PACKET_SIZE bytes and exclusive-ors to zero.", "quantifier": "every sequence of received times, every interleaving with the other calls", "why_tests_cant": "all noise sequences", "anchors": ["include/dcc/rx/crtp_base.hpp: receive"]}
{"id": "C26", "title": "Resynchronisation after noise", "statement": "From any receiver state (for example in the middle of garbage) with room for one more byte in the packet being assembled and room in the queue, after one complete packet from a legal transmitter the receiver is synchronised, so the following packet is decoded.", "quantifier": "every receiver state, every pair of packets", "why_tests_cant": "all states of the bit machine", "anchors": ["include/dcc/rx/crtp_base.hpp: receive, reset"]}
{"id": "C27", "title": "Receive queue is a bounded FIFO", "statement": "The receive queue never exceeds DCC_RX_DEQUE_SIZE; while it is full receive() adds nothing; execute() handles the oldest packet and removes exactly that one.", "quantifier": "every history", "why_tests_cant": "every history", "anchors": ["include/dcc/rx/crtp_base.hpp: receive, executeThreadMode"]}
{"id": "C28", "title": "packetEnd() marks exactly the end of a valid packet and blocks execution", "statement": "packetEnd() is true exactly if the last call of receive() completed a valid packet; while it is true execute() returns false and has no effect.", "quantifier": "every history of calls", "why_tests_cant": "every history", "anchors": ["include/dcc/rx/crtp_base.hpp: packetEnd, executeThreadMode, receive"]}
{"id": "C29", "title": "Executing a received packet never reads outside the packet", "statement": "For any sequence of receive/execute/BiDi calls no access to a received packet is out of bounds. (False: the library accepts packets that are too short for their instruction, and channel 2 reads the packet after it was cleared; proved for packets at least as long as their instruction format and channel 2 used between a valid packet and the next start bit.)", "quantifier": "every history, every packet content", "why_tests_cant": "all malformed packets", "anchors": ["include/dcc/rx/crtp_base.hpp: executeOperationsAddressed, advancedOperations, cvLong, cvShort, featureExpansion, executeAutomaticLogon"]}
{"id": "C30", "title": "No packet can overflow the receive buffer", "statement": "No sequence of times passed to receive() makes it append more than DCC_MAX_PACKET_SIZE bytes to the packet buffer. (False for hostile or noisy signals: it happens exactly when a preamble and a start bit are followed by eighteen bytes with zeros behind them and eight further bits; so never for what a legal transmitter sends.)", "quantifier": "every sequence of received times", "why_tests_cant": "all sequences of times", "anchors": ["include/dcc/rx/crtp_base.hpp: receive (Data)"]}
{"id": "C31", "title": "Bit tolerance of the receiver", "statement": "time2bit accepts exactly 52..64us as one and 90..10000us as zero, the classes are disjoint, and anything else leaves the receiver's assembly state unchanged apart from clearing packetEnd().", "quantifier": "every 32-bit time, every receiver state", "why_tests_cant": "all times and states", "anchors": ["include/dcc/rx/timing.hpp: time2bit", "include/dcc/rx/crtp_base.hpp: receive"]}
{"id": "C32", "title": "Packets for other addresses are ignored", "statement": "Executing a packet whose address is neither broadcast nor the active address of the decoder returns false and causes no direction, speed, function, service or CV callback caused by the packet, and does not change the configuration.", "quantifier": "all packets to foreign addresses, all decoder states", "why_tests_cant": "all addresses and states", "anchors": ["include/dcc/rx/crtp_base.hpp: executeOperationsAddressed"]}
{"id": "C33", "title": "Return value of execute", "statement": "In operations mode execute() returns true exactly if a packet was pending and addressed to broadcast or to the decoder's active address(es).", "quantifier": "all packets and states", "why_tests_cant": "all packets and states", "anchors": ["include/dcc/rx/crtp_base.hpp: execute, executeOperations"]}
{"id": "C34", "title": "A logon address replaces primary and consist address", "statement": "While a non-zero logon address is assigned, packets to primary or consist address (if different) are ignored and packets to the logon address are executed as if sent to the primary address, i.e. callbacks carry the primary address.", "quantifier": "all packets, addresses and states", "why_tests_cant": "all combinations", "anchors": ["include/dcc/rx/crtp_base.hpp: executeOperationsAddressed"]}
{"id": "C35", "title": "126-step speed commands end to end", "statement": "For every accepted transmit configuration, address and speed byte, transmitting make_advanced_operations_speed_packet and executing it at the addressed decoder calls direction and speed exactly as specified: code 0 stop, code 1 emergency stop without direction, code n>=2 scaled step n-1, direction flipped if the address is reversed by CV29:0 (CV19:7 for the consist).", "quantifier": "all speed bytes, addresses, decoder configurations", "why_tests_cant": "three bytes are tested", "anchors": ["include/dcc/rx/crtp_base.hpp: advancedOperations, directionSpeed", "include/dcc/utility.hpp: make_advanced_operations_speed_packet"]}
{"id": "C36", "title": "14/28-step speed commands end to end", "statement": "make_speed_and_direction_packet executed at the decoder yields stop, emergency stop, or the scaled step; in 28-step mode the intermediate bit selects the odd/even step; in 14-step mode bit 4 controls F0 instead.", "quantifier": "all speed bytes, addresses, decoder configurations", "why_tests_cant": "one byte is tested", "anchors": ["include/dcc/rx/crtp_base.hpp: speedAndDirection"]}
{"id": "C37", "title": "Function commands end to end", "statement": "For F0-F4, F5-F8, F9-F12, F13-F20, F21-F28, the function callback produced by executing the corresponding packet sets exactly the functions of the group to the states given to the builder and leaves all other functions alone (F0 being left alone in 14-step mode).", "quantifier": "all states, addresses and previous function states", "why_tests_cant": "all group states and previous states", "anchors": ["include/dcc/rx/crtp_base.hpp: functionGroup, featureExpansion", "include/dcc/utility.hpp: make_function_group_*, make_feature_expansion_*"]}
{"id": "C38", "title": "Speed, direction and functions packet", "statement": "Executing make_advanced_operations_speed_direction_and_functions_packet sets exactly the function groups F7-F0, F15-F8, F23-F16, F31-F24 supplied, each to the supplied state, and the speed. (False for F31-F24: the mask passed is that of F7-F0.)", "quantifier": "all function bytes, number of groups, addresses", "why_tests_cant": "all byte combinations; the F31-F24 group is untested", "anchors": ["include/dcc/rx/crtp_base.hpp: advancedOperations"]}
{"id": "C39", "title": "CV writes on the main need two identical packets and happen once", "statement": "In operations mode a long-form CV byte or bit write is performed exactly when the same packet is executed the second time in a row among the decoder's CV packets; one packet alone never writes, and further repetitions never write again.", "quantifier": "every history of executed CV packets", "why_tests_cant": "unbounded repetition counts and interleavings", "anchors": ["include/dcc/rx/crtp_base.hpp: cvLong, countOwnEqualCvPackets"]}
{"id": "C40", "title": "Service mode acts exactly once per run of identical CV packets and acknowledges only matches", "statement": "In service mode a run of n identical direct-mode CV packets causes exactly one read or write if n>=2 and none if n<2, and serviceAck is called at most once and only if the value read back equals the value in the packet.", "quantifier": "every run length, packet and CV store", "why_tests_cant": "unbounded run lengths", "anchors": ["include/dcc/rx/crtp_base.hpp: executeService, cvLong, cvVerifyImpl, cvWriteImpl"]}
{"id": "C41", "title": "Service mode entry and exit", "statement": "Service mode is entered exactly by executing a packet with address value zero (after a logon address has been replaced by the primary address) and a zero instruction byte, service mode is left exactly by a packet whose first byte is neither zero nor 0x70-0x7F; the hook is called exactly at the transitions; serviceMode() reports the mode.", "quantifier": "every history", "why_tests_cant": "every history", "anchors": ["include/dcc/rx/crtp_base.hpp: serviceMode, executeService, executeOperationsAddressed"]}
{"id": "C42", "title": "Register and paged mode address mapping", "statement": "In service mode a three byte packet with page register p in 1..255 and data register r in 0..3 accesses CV number 4(p-1)+r+1, register 4 CV29, registers 6/7 CV7/CV8, register 5 the page register itself; the accessed CV is always one of CV1..CV1024. (The last clause is false for page register 0.)", "quantifier": "all packets and page registers", "why_tests_cant": "all register values and histories", "anchors": ["include/dcc/rx/crtp_base.hpp: registerMode"]}
{"id": "C43", "title": "Decoder lock", "statement": "While the lock is active (CV15 and CV16 non-zero and different) no command reads (verifies) or writes any CV except a write to CV15. (False for logon, which stores CVs directly; proved for all other commands.)", "quantifier": "every history while locked", "why_tests_cant": "all packets and histories", "anchors": ["include/dcc/rx/crtp_base.hpp: cvVerify, cvWrite, logonStore"]}
{"id": "C44", "title": "No CV access through the consist address", "statement": "A CV access instruction received through a (non-zero) consist address never reads or writes a CV through the CV access path.", "quantifier": "all CV packets, all states", "why_tests_cant": "all packets and states", "anchors": ["include/dcc/rx/crtp_base.hpp: cvLong, cvShort"]}
{"id": "C45", "title": "Configuration always reflects the CVs", "statement": "With a CV store that behaves like memory, after any history of commands the decoder's addresses, direction flags, speed-step mode, lock and BiDi switches equal those that init() would compute from the current CVs (logon aside).", "quantifier": "every history of commands with a memory-like CV store", "why_tests_cant": "all histories of CV writes", "anchors": ["include/dcc/rx/crtp_base.hpp: init, cvWrite"]}
{"id": "C46", "title": "Channel 1 reports the active address alternately high/low", "statement": "If CV28:0 and CV29:3 are set, the address datagrams transmitted in channel 1 are pairs (ID1 high part, ID2 low part) that encode the active address (logon, else consist if set, else primary) per RCN-217; otherwise no address datagram is queued. (A pair queued before channel 1 is disabled is still sent; a consist address of 128 or more is not reported.)", "quantifier": "every history", "why_tests_cant": "every history and address", "anchors": ["include/dcc/rx/crtp_base.hpp: adr, adrHigh, adrLow, appAdr"]}
{"id": "C47", "title": "POM answers belong to the request", "statement": "In channel 2 after a CV access packet to the own address, the decoder transmits an ACK if that packet is not the CV packet executed last; otherwise the ID0 datagram with the last value obtained for that very packet, once; and nothing if no value has been obtained. Never a value belonging to another packet. (False: executing a consist control packet overwrites the pending answer with CV19, and a late asynchronous callback answers a later request.)", "quantifier": "every history", "why_tests_cant": "every history", "anchors": ["include/dcc/rx/crtp_base.hpp: appPom, pom, countOwnEqualCvPackets"]}
{"id": "C48", "title": "Dynamic datagrams are a bounded FIFO, two per cutout", "statement": "Datagrams accepted by datagram() are transmitted in channel 2 exactly once, in order, at most two per cutout; the queue never exceeds DCC_RX_BIDI_DEQUE_SIZE; after the queue ran empty the first datagram is QoS.", "quantifier": "every history of datagram() and channel 2 calls", "why_tests_cant": "every history", "anchors": ["include/dcc/rx/crtp_base.hpp: datagram, dyn, appDyn"]}
{"id": "C49", "title": "Everything transmitted on BiDi is well-formed", "statement": "For every history, every byte handed to transmitBiDi has exactly four one bits, channel 1 transmissions have exactly two bytes and channel 2 transmissions at most six.", "quantifier": "every history of all calls", "why_tests_cant": "every history", "anchors": ["include/dcc/rx/crtp_base.hpp: appAdr, appPom, appDyn, appTos, appLogon"]}
{"id": "C50", "title": "Tip-off search answers", "statement": "A tip-off search answer is queued only for a binary state XF2 off command, only if less than 30 seconds passed since the last gap of two or more seconds, at most one is pending at a time, and it consists of the address datagrams and the elapsed seconds. Exactly those answers are transmitted in tip-off cutouts that these rules and the backoff demand: none is missing, none is added.", "quantifier": "every history, every monotone clock", "why_tests_cant": "real time and all histories", "anchors": ["include/dcc/rx/crtp_base.hpp: tipOffSearch, updateTimepoints, appTos"]}
{"id": "C51", "title": "Backoff is bounded", "statement": "For every random source: the first query after construction or now() does not back off; the number of backoffs behind the k-th non-backoff result is the random number modulo 8, 16, 32, 64, 64, ...; so among any 64 consecutive queries at least one does not back off; after now() all answers are those of a new object.", "quantifier": "every random sequence and every number of queries", "why_tests_cant": "all random sequences", "anchors": ["include/dcc/rx/backoff.hpp: Backoff"]}
{"id": "C52", "title": "Logon protocol", "statement": "Logon packets are acted upon only if logon is enabled (CV28:7 and CV29:3); LOGON_SELECT and LOGON_ASSIGN only if the unique ID matches; once selected (by LOGON_SELECT or fast logon) no further LOGON_ENABLE is answered; a LOGON_ENABLE is answered exactly if it is for locomotive decoders, the session is not the known one of the known command station, and no backoff pause is in effect; the answers are the ID15 datagram with manufacturer and unique ID, the short info with CRC, and the ID13 assign acknowledgement.", "quantifier": "all logon packets and states", "why_tests_cant": "all packets, ids and histories", "anchors": ["include/dcc/rx/crtp_base.hpp: executeAutomaticLogon, logonEnable, logonSelect, logonAssign, appLogon"]}
{"id": "C53", "title": "A stored logon address is restored by fast logon", "statement": "If a logon address was assigned and stored, then after a restart a LOGON_ENABLE with known command station and a session ID increased by at most 4 restores the same logon address. (False: the address is stored without the long-address marker that decoding expects.)", "quantifier": "every assignable address", "why_tests_cant": "all addresses, across restarts", "anchors": ["include/dcc/rx/crtp_base.hpp: logonStore, logonEnable"]}
{"id": "C54", "title": "Logon answers never overflow their queue", "statement": "No sequence of valid packets makes the decoder queue a second logon answer while one is pending. (False: two answered logon packets without a channel 2 call in between violate the assertion.)", "quantifier": "every history", "why_tests_cant": "all histories", "anchors": ["include/dcc/rx/crtp_base.hpp: logonEnable, logonSelect, logonAssign, _logon_deque"]}
{"id": "C55", "title": "Quality of service is a percentage", "statement": "The QoS value transmitted is always between 0 and 100. (False: execution while a packet is being received can make it 255.)", "quantifier": "every history of receive and execute calls", "why_tests_cant": "histories of more than a hundred packets", "anchors": ["include/dcc/rx/crtp_base.hpp: updateQos"]}
{"id": "C56", "title": "Interrupt/thread interleaving", "statement": "With receive() and the BiDi channel methods preempting execute() between any two of its steps, every packet accepted is executed exactly once and in order, and queue bounds and packet validity hold at every point.", "quantifier": "every interleaving of interrupt calls with the steps of execute()", "why_tests_cant": "all schedules", "anchors": ["include/dcc/rx/crtp_base.hpp: receive, executeThreadMode"]}
{"id": "C57", "title": "RMT encoder output is independent of memory chunking", "statement": "For every way the RMT driver splits the encoding into memory-limited sessions, the symbols emitted for a packet are four BiDi symbols (if enabled and not the first packet), an optional ZIMO 0, the preamble, for each byte a zero and its bits, and the end symbol. (False: if the memory is full exactly after a byte that is not the last, the following start bit is lost.)", "quantifier": "every packet, configuration and sequence of available memory sizes", "why_tests_cant": "all session splits", "anchors": ["src/rmt_dcc_encoder.c: rmt_encode_dcc and its stages"]}
{"id": "C58", "title": "RMT encoder configuration check", "statement": "rmt_new_dcc_encoder accepts exactly the configurations whose members are in the documented ranges, and then all emitted symbols have the configured level order and durations within tolerance; a rejected or failed call leaks nothing. (False for the second half of the end bit: 1..51 us are accepted.)", "quantifier": "all configurations", "why_tests_cant": "all 2^40 configurations", "anchors": ["src/rmt_dcc_encoder.c: rmt_new_dcc_encoder"]}
{"id": "C59", "title": "disable() stops reception", "statement": "After disable() no packet is received until enable(). (False: the enabled flag is never consulted.)", "quantifier": "every history after disable()", "why_tests_cant": "every signal", "anchors": ["include/dcc/rx/crtp_base.hpp: enable, disable, receive"]}
{"id": "C60", "title": "East/west direction and MAN", "statement": "Executing a special operating modes packet sets man() to bit 7 and reports east, west or neither according to bits 6 and 5. (False for neither: west is reported.)", "quantifier": "all option bytes", "why_tests_cant": "all bytes and states", "anchors": ["include/dcc/rx/crtp_base.hpp: advancedOperations, man"]}
{"id": "C61", "title": "Dynamic value conversion", "statement": "Kmh values 0..511 are encoded exactly and larger ones saturate; temperatures -50..205 are encoded as value+50; track voltages 5000..30599 mV are encoded in 100 mV steps and 0..4999 mV as 0. Outside these ranges temperature and voltage wrap around instead of saturating.", "quantifier": "all 16-bit values", "why_tests_cant": "all values", "anchors": ["include/dcc/rx/crtp_base.hpp: dyn"]}
{"id": "C62", "title": "Nothing happens without a cause", "statement": "execute() with an empty queue and BiDi channel calls with nothing pending call no user method and change no state.", "quantifier": "every state", "why_tests_cant": "every state", "anchors": ["include/dcc/rx/crtp_base.hpp: executeThreadMode, appAdr, appDyn, appTos, appLogon, appPom"]}
{"id": "C63", "title": "Binary state, time and unsupported instructions have no user-visible effect", "statement": "Instructions the README marks as unsupported cause no user callback and do not change configuration or mode.", "quantifier": "all such packets", "why_tests_cant": "all packets", "anchors": ["include/dcc/rx/crtp_base.hpp: featureExpansion, decoderControl"]}
{"id": "C64", "title": "Short-form CV access", "statement": "Short form CV access writes CV23/CV24 immediately, CV17/CV18 (with the two top bits of CV17 set and CV29:5 set) and CV31/CV32 only on the second identical packet.", "quantifier": "all packets and histories", "why_tests_cant": "all packets and repetition counts", "anchors": ["include/dcc/rx/crtp_base.hpp: cvShort"]}
{"id": "C65", "title": "Consist control", "statement": "Executing a consist control packet stores the address with its direction bit in CV19 and the decoder then answers to this consist address with the given direction (memory-like CV store, CV20 zero, lock off).", "quantifier": "all consist addresses and directions", "why_tests_cant": "all values", "anchors": ["include/dcc/rx/crtp_base.hpp: consistControl, init"]}
{"id": "C66", "title": "A repeated service mode request is answered again", "statement": "If a command station sends the same direct-mode verify request again after it has been answered once (in the same or a later programming session), the decoder answers again. (False: the repetition counter is only reset by a different CV packet.)", "quantifier": "every number of repetitions and every session history", "why_tests_cant": "unbounded histories", "anchors": ["include/dcc/rx/crtp_base.hpp: cvLong, countOwnEqualCvPackets, serviceMode"]}
{"id": "C67", "title": "Configuration reading never reads outside its buffers", "statement": "init(), also when triggered by a CV write, never reads outside the CV values it fetched. (False for CV1 in 192..231 with short addressing: decode_address reads a second byte behind a single one.)", "quantifier": "every CV content", "why_tests_cant": "all CV contents", "anchors": ["include/dcc/rx/crtp_base.hpp: init", "include/dcc/address.hpp: decode_address"]}
{"id": "C68", "title": "Long address zero is not broadcast", "statement": "A packet to the long address 0 is not treated like a broadcast. (False: only the value is tested, so C0 00 reaches every decoder and can even enter service mode.)", "quantifier": "all packets with long address zero, all decoder states", "why_tests_cant": "all packets", "anchors": ["include/dcc/rx/crtp_base.hpp: executeOperationsAddressed"]}
{"id": "C69", "title": "What the RMT encoder sends is received by the decoder", "statement": "The half bits of the symbols a new RMT encoder writes for any list of valid packets (memory sizes that lose no start bit, end bit 0 or at least 52 us) make a waiting decoder receive exactly these packets in order, with any other calls in between. (With ZIMO 0 fewer than ten ones may precede the first packet; with a shorter end bit the last packet does not arrive.)", "quantifier": "all packets, configurations, memory sizes and interleavings of the decoder's calls", "why_tests_cant": "unbounded packet lists and schedules", "anchors": ["src/rmt_dcc_encoder.c: rmt_encode_dcc", "include/dcc/rx/crtp_base.hpp: receive", "include/dcc/rx/timing.hpp: time2bit"]}
{"id": "C70", "title": "The decoder is silent in the cutout after an invalid packet", "statement": "After a packet with a wrong checksum or fewer than three bytes the decoder transmits nothing in either BiDi channel until the next start bit. (False: `_addrs.received = {}` clears only the value of the received address, so the type of the packet before decides who answers; proved unless that packet was a broadcast, for a locomotive or for automatic logon, and in channel 2 also after a packet for a locomotive, unless the decoder answers to address 0.)", "quantifier": "every history, every invalid packet, every sequence of calls up to the next start bit", "why_tests_cant": "unbounded histories; the state left by earlier packets decides", "anchors": ["include/dcc/rx/crtp_base.hpp: receive, biDiChannel1, biDiChannel2", "include/dcc/address.hpp: operator="]}
{"id": "C71", "title": "Interrupts between any two accesses of the thread lose nothing", "statement": "With receive(), biDiChannel1() and biDiChannel2() called between any two accesses the thread makes to the object (one member, one container operation or one call of the user's class), in every method, every packet accepted is executed exactly once and in order, front() and pop_front() are only called while a packet waits, all bounds hold, no access of the thread overflows a queue and everything transmitted is well formed, as long as receive() is not called between the assignments of reset(), i.e. inside disable(). Without interrupts the accesses of a method do exactly what the method does in the other properties.", "quantifier": "every interleaving of interrupt calls with the single accesses of every method", "why_tests_cant": "all schedules at the granularity of single accesses", "anchors": ["include/dcc/rx/crtp_base.hpp: receive, executeThreadMode, init, datagram, enable, disable, biDiChannel1, biDiChannel2"]}
{"id": "C72", "title": "A CV answer is not stale when interrupts come", "statement": "After a CV packet for the decoder channel 2 transmits the acknowledge if the thread has not come to this packet, otherwise an answer queued since it did. (False: countOwnEqualCvPackets() takes over the packet before it clears the answers; if channel 2 comes between these two statements the answer to the CV packet before is transmitted. Proved for every other point.)", "quantifier": "every interleaving of interrupt calls with the single accesses of every method", "why_tests_cant": "needs an interrupt between two particular statements", "anchors": ["include/dcc/rx/crtp_base.hpp: countOwnEqualCvPackets, pom, appPom"]}
{"id": "C73", "title": "No invalid packet is accepted while the decoder is being disabled", "statement": "Only valid packets ever wait for execution, whenever interrupts come. (False: disable() calls reset(), which clears the checksum before the state; if the end bit of a packet with a wrong checksum is received in between, the packet is accepted and executed although the decoder is disabled. Proved unless receive() is called between the assignments of reset().)", "quantifier": "every interleaving of interrupt calls with the single accesses of every method", "why_tests_cant": "needs an interrupt between two particular statements", "anchors": ["include/dcc/rx/crtp_base.hpp: disable, reset, receive"]}
{"id": "C74", "title": "Every builder puts its arguments into the bits the standard prints", "statement": "For every argument in range, make_*_packet returns address, instruction and checksum exactly as the bit layouts of RCN-211/212/214/216/218 print them (0, 1 and one letter per field, most significant bit first); the overloads taking a plain number use a short address up to 127 and a long one above.", "quantifier": "every builder, every address, every argument in its documented range", "why_tests_cant": "tests compare single packets; a field shifted by one bit, swapped bytes or a wrong limit agree with many examples", "anchors": ["include/dcc/utility.hpp: make_*_packet", "include/dcc/address.hpp: encode_address"]}
{"id": "C75", "title": "From the throttle to the motor, whole histories", "statement": "If a command station accepted only driving commands (speed, direction, functions; built by make_*_packet for any locomotive address or broadcast) and a decoder gets every duration the station transmits, with any other calls except init and disable in between and no full queue, then the commands split, in order, into done, waiting in the decoder's queue and unsent, and the calls of the user's direction/speed/function are exactly those the done commands ask for the decoder's addresses, in order, none twice, none left out, none from idle packets. Unsent are those in the station's queue and at most the one being sent. A main loop that calls execute after every receive, with room for two packets, never faults, never meets a full queue and never leaves more than one command waiting.", "quantifier": "every station history and queue size, every command list, every decoder configuration and address, every interleaving of calls", "why_tests_cant": "tests feed single packets or fixed byte sequences to one side; the composition of queueing, framing, bit timing, preamble tracking, queueing and interpretation over unbounded histories is not sampled", "anchors": ["include/dcc/tx/crtp_base.hpp: packet, bytes, transmit", "include/dcc/rx/crtp_base.hpp: receive, execute, executeOperations", "include/dcc/utility.hpp: make_*_packet"]}
{"id": "C76", "title": "Calling execute every 5 ms is enough", "statement": "If execute is called at least every 5 ms (as in the manual) while receive gets the times between the edges of the signal, no packet is lost to a full queue and at most one waits. (False for arbitrary signals: the decoder accepts packets with ten preamble bits, one every 4788 us, and execute does nothing between the end of a packet and the next half bit, so that a loop in step with the packets executes none of them. Proved for every signal if the period is at most 4013 us, and for every history of a command station with up to 5885 us, where every command but the last one received is executed; 5942 us are too much. Calls may also be late: each period without a call takes room for one more packet. The same holds if receive gets measured times.)", "quantifier": "every signal, every schedule of calls with time stamps, every station history", "why_tests_cant": "tests call execute right after each packet; the phase between two periodic processes and the shortest packet are not sampled", "anchors": ["README.md: Usage, Receiver, 3.", "include/dcc/rx/crtp_base.hpp: receive, execute, packetEnd", "include/dcc/tx/timings.hpp"]}
{"id": "C77", "title": "A decoder that measures the track signal gets every packet", "statement": "A command station of the library drives the track and never changes invert. A decoder input that sees the polarity, or one of the two wires alone, measures the time between two changes with an error of at most 4 us (more generally: each half bit as anything within the limits of RCN-210, and any interval containing a part of a cutout as anything at all) and passes it to receive. Then exactly the packets sent arrive, in order, whatever the configuration changes (except invert), idle packets and cutouts, and the calls that move the locomotive are exactly those the commands ask for. A packet has arrived when its cutout has begun, or the next packet. An error of 5 us is too much, and so is changing invert in the middle of a packet.", "quantifier": "every station history with constant invert, every measurement within the limits, every kind of input and state of the input before, every interleaving of the decoder's other calls", "why_tests_cant": "tests pass the durations returned by transmit to receive one by one; a real decoder sees the cutout joined with the following half bit, and all combinations of errors cannot be sampled", "anchors": ["include/dcc/tx/crtp_base.hpp: transmit, packetTiming, bidiTiming", "include/dcc/rx/crtp_base.hpp: receive", "include/dcc/rx/timing.hpp: time2bit", "examples/stm32/src/bsp.c"]}
{"id": "C78", "title": "What is entered at the prompt of the example program is what the decoder does", "statement": "In the example program with a prompt, a command station and a decoder in three threads, whatever driving commands are entered and in whatever order the threads run, the program never faults and the decoder makes exactly the calls of direction, speed and function the commands ask for, in the order entered, except for at most one command received but not executed and those still on their way. (True if the decoder's thread comes first, the addresses are at most 127, no more than three commands wait in FIFO and queue, and execute is called at least once in 20 rounds of the station. False otherwise: the prompt offers addresses up to 16383 but always sends to the short address of the last eight bits, so 259 drives locomotive 3; commands typed fast get lost, an emergency stop among them; the station's thread calls an empty function if it comes first; address 254 with read_cv_byte makes the decoder read behind an array.)", "quantifier": "every user class, every sequence of inputs, every schedule of the three threads, every clock", "why_tests_cant": "the example has no tests; the schedules of three threads and everything a user may type cannot be sampled", "anchors": ["examples/repl/src/main.cpp: decoder_task, command_station_task, repl_task", "examples/repl/src/decoder.cpp", "examples/repl/src/fifo.hpp", "include/dcc/address.hpp: operator="]}
{"id": "C79", "title": "A session on the programming track, from the command station to the CVs", "statement": "If a command station sends a programmer's packets (resets, idle packets and direct mode requests for legal CVs) and a decoder whose class is a memory of CVs gets every duration, then the decoder never faults as long as its CVs hold an address, enters and leaves service mode as told, and performs each request exactly once if it was sent at least twice and differs from the one before, in order, nothing else. Reading a CV bit by bit leaves all CVs as they are and the bits acknowledged are those of its value; a write is acknowledged and the value written is what is read back; locked CVs look like zero until CV15 is written. (True if the direct mode requests arrive in service mode or the decoder's address is not one of 112 to 127. False otherwise: when its queue runs empty the station sends an idle packet, the decoder leaves service mode, and the requests are commands for locomotives 112 to 127, speed commands among them.)", "quantifier": "all command stations and histories, all sequences of packets of a programmer with any repetitions and resets, all contents of the CVs, all interleavings of the decoder's calls without init, disable and callbacks", "why_tests_cant": "the tests of the decoder feed single packets to execute; no test runs a session through transmit, receive and execute, and contents of CVs, lock states, orders and repetitions cannot be enumerated", "anchors": ["include/dcc/rx/crtp_base.hpp: executeService, cvLong, cvVerify, cvWrite, serviceAck, countOwnEqualCvPackets, init", "include/dcc/utility.hpp: make_cv_access_long_verify_service_packet, make_cv_access_long_write_service_packet, make_reset_packet", "include/dcc/tx/crtp_base.hpp: packet, transmit"]}
{"id": "C80", "title": "Programming on the main: what a command station hears is what is in the CVs", "statement": "A decoder outside service mode, whose class is a memory of CVs, has an address of its own, the CVs unlocked and channel 2 enabled; its consist address is another one. A command station sends CV accesses in the long form to that address, each request several times in a row and different from the one before, with any other packets in between, and leaves a cutout after every packet. Then the decoder answers the first packet of a request with an ACK; each further packet of a read request with an app:pom datagram with the content of the CV (0 or 1 for a bit); a write request takes effect exactly once, with the second packet, and from the third packet on the value written is transmitted (once for a bit). Afterwards the CVs are those after the writes in order, everything else is unchanged. The same holds in any interleaving of receive, execute and the channels with respect to an abstract device that counts identical packets and holds at most one value.", "quantifier": "all histories of receive, execute, biDiChannel1, biDiChannel2 and the other calls without init, disable and callbacks; all contents of the CVs; all addresses; all CVs 1 to 1024, all values, bits and numbers of repetitions; all packets in between", "why_tests_cant": "the tests call execute and the channels for a single packet with a mock; the state kept between packets (packet counted last, datagram waiting), the contents of CVs and the order of calls are not enumerable", "anchors": ["include/dcc/rx/crtp_base.hpp: cvLong, cvVerify, cvWrite, countOwnEqualCvPackets, executeOperations, biDiChannel2", "include/dcc/rx/crtp_base.hpp: pom, appPom (lines 889-900, 1072-1090)", "include/dcc/packet.hpp: make_cv_access_long_verify_packet, make_cv_access_long_write_packet"]}
{"id": "C81", "title": "Several decoders on one track do not disturb each other", "statement": "Decoders on the same track that get the same half bits have received the same packet last, whatever else is called on them. In the cutout after a packet for a locomotive only decoders that have this number as their own address, or as that of their consist with answering enabled, transmit in channel 2; so no two of them do if their addresses differ. Commands a station accepts for a locomotive move exactly the decoder listening to that address, each of the others does exactly what is for it. Programming one of them on the main leaves the CVs of all others as they are and only that one answers.", "quantifier": "any number of decoders with any CVs, any histories of calls without disable in which no receive meets a full queue; all command stations, commands, requests and packets in between", "why_tests_cant": "each test has a single decoder; combinations of decoders, CVs, packets and interleavings of their calls cannot be enumerated", "anchors": ["include/dcc/rx/crtp_base.hpp: receive, biDiChannel2 (236-252), executeThreadMode, executeOperations, cvLong", "include/dcc/address.hpp: operator==, decode_address"]}
{"id": "C82", "title": "Handing over a packet while the timer interrupt transmits loses nothing", "statement": "The thread of a command station calls init and packet while an interrupt calls transmit between any two of their accesses to the object (the two indices of the ring, the slot, which is written in several steps, each member of the configuration). Every packet acts as if handed over at one moment between the call and its return: transmit sends the accepted packets whole, once each and in order, with idle packets in between. The slot being written is neither being sent nor waiting. Each member of the configuration in force is that of one of the configurations handed over. Nothing faults.", "quantifier": "all queue sizes, all sequences of calls with valid configurations and packets that fit, all interleavings with interrupts, everything a half written slot may contain", "why_tests_cant": "the tests call packet and transmit one after the other; an interrupt in the middle of a call does not happen in them", "anchors": ["include/dcc/tx/crtp_base.hpp: init, packet, bytes, transmit (34-84)", "examples/stm32/src/command_station.cpp: TIMER_IRQ_HANDLER, main"]}
{"id": "C83", "title": "Every command accepted by the command station is done in the end", "statement": "A command station accepts commands and a decoder measures the track signal, with its main loop calling execute often enough except for some calls left out. Once the station has got no more commands for a while - the time of the longest packet for each packet in its queue and the one being sent, and one idle packet more than calls were left out - the decoder has made exactly the calls all the accepted commands ask for, in order; nothing is lost, done twice or left waiting.", "quantifier": "all queue sizes, all histories of a station that keeps its orientation, all legal commands, all measured times within RCN-210, all decoders with a memory of their own, all schedules of the main loop that are late at most as often as there is room in the queue", "why_tests_cant": "the tests execute each packet right after receiving it; that nothing stays behind in one of the two queues depends on all histories and schedules", "anchors": ["include/dcc/tx/crtp_base.hpp: packet, transmit (45-84)", "include/dcc/rx/crtp_base.hpp: receive, execute"]}
{"id": "C84", "title": "The two boards of the STM32 example show the same LEDs", "statement": "The command station of the example sets its green and yellow LED and sends a speed or function packet each turn of its main loop, with the timer's interrupts anywhere in its calls; the decoder of the example measures the track signal with its own timer and clock, calls execute in its main loop and sets its LEDs when told to. After the delay that follows any number of packets both boards show the same LEDs, no packet has been lost or done twice, and neither board runs into a fault.", "quantifier": "all numbers of turns, all interleavings of the timer interrupt with the calls of the main loop, all delays long enough for two packets, all clocks that differ by at most one part in 53 with up to three ticks of jitter, all schedules of the decoder's main loop that are late at most 29 times", "why_tests_cant": "the example runs on two boards and is not part of the tests; every run of it sees one interleaving and one pair of clocks", "anchors": ["examples/stm32/src/command_station.cpp: main, TIMER_IRQ_HANDLER", "examples/stm32/src/decoder.cpp: Decoder, main", "examples/stm32/src/bsp.c: bsp_command_station_irq, bsp_decoder_irq, bsp_write_track"]}
{"id": "C85", "title": "The decoder of the STM32 example answers programming requests as its CVs are", "statement": "In service mode the decoder of the example acknowledges a direct mode request exactly if its CVs hold the byte or the bit to verify, or if it has written it.", "quantifier": "all histories of calls, all direct mode requests, all numbers of repetitions", "why_tests_cant": "the example is not part of the tests", "anchors": ["examples/stm32/src/decoder.cpp: readCv, writeCv (35-49)", "include/dcc/rx/crtp_base.hpp: cvVerify, cvWrite"]}
{"id": "C86", "title": "The packets of the ESP32 example arrive at a decoder if the pauses between them are short", "statement": "The ESP32 example sends idle packets with a shortened end bit and a pause behind each packet. A decoder receives a packet exactly if another packet follows and the pause in between does not make a zero of the half bit it prolongs: pauses below 30 us are harmless, pauses from 30 us to 9940 us cost the packet.", "quantifier": "all numbers of packets, all packets with room for one more byte, all pauses, both levels of the output in the pause, all decoders waiting for a preamble, all other calls in between", "why_tests_cant": "the example needs the hardware; the tests of the encoder look at symbols and not at what a decoder makes of them", "anchors": ["examples/esp32/main/app_main.cpp: app_main (10-43)", "src/rmt_dcc_encoder.c: rmt_encode_dcc", "include/dcc/rx/crtp_base.hpp: receive (120-175)"]}
{"id": "C87", "title": "A locomotive given another address on the programming track obeys the new address and no longer the old one", "statement": "A programmer writes CV1 and clears CV29 bit 5, or writes CV17 and CV18 and sets CV29 bit 5, each request sent at least twice, then idle packets. The decoder does each request once, acknowledges it, leaves service mode, and changes no other CV. Put on the main track it makes exactly the calls asked by commands for everyone, for the new address and for its consist address.", "quantifier": "all addresses 1..10239, all CVs before that hold an address and are not locked, all numbers of repetitions and reset packets, all streams of commands and all interleavings of the station's calls, all times passed", "why_tests_cant": "the tests write single CVs; they do not follow a decoder over the change of its address and on to the packets of another command station", "anchors": ["include/dcc/rx/crtp_base.hpp: executeService (313-325), cvLong (630-675), cvWrite (757-800), init (48-100), executeOperationsAddressed (335-380)", "include/dcc/utility.hpp: make_cv_access_long_write_service_packet, make_reset_packet", "include/dcc/tx/crtp_base.hpp: packet, transmit"]}
{"id": "C88", "title": "A decoder that logs on answers as it should and then obeys the address it was given, and no other", "statement": "A command station other than the one stored in the decoder, or the one stored in a session that is neither the one stored nor one of the next four, sends LOGON_ENABLE, SELECT and LOGON_ASSIGN packets, idle packets and commands in any order, with decoders selected before they are assigned an address. Nothing faults. After each logon packet the decoder transmits exactly the 48 bit answer due (its ID outside the backoff and while not selected, short info, acknowledgement) or nothing. Its locomotive does exactly what commands to its own address ask until an address is assigned, and from then on what commands to the address assigned last and to everyone ask. Two decoders with different unique IDs given different addresses are moved separately, even if their own addresses are the same.", "quantifier": "all histories of the decoder before, all sequences of packets, all unique IDs and manufacturers, all long addresses 1..10239, all random numbers, all valid bit timings", "why_tests_cant": "the tests send single logon packets; they do not follow a session over any number of packets with the answers in the cutouts and commands in between", "anchors": ["include/dcc/rx/crtp_base.hpp: executeAutomaticLogon (379-420), logonEnable (921), logonSelect (969), logonAssign (993), logonStore (1150), executeOperationsAddressed, biDiChannel1, biDiChannel2", "include/dcc/utility.hpp: make_logon_enable_packet (641), make_logon_select_packet (658), make_logon_assign_packet (681)"]}
{"id": "C89", "title": "After being switched off and on, a decoder that logs on fast obeys the address it had been assigned", "statement": "A decoder that logged on, got the address n and executed one more packet has station, session and n in its CVs. Switched off and on with these CVs, it is selected and assigned by LOGON_ENABLE of the same station in the same session or one of the next four. It should then obey commands to n, and decoders with different addresses should be moved separately.", "quantifier": "all sessions of logon packets, idle packets and commands as in C88, all addresses that can be assigned, all CVs otherwise, all commands afterwards", "why_tests_cant": "the tests look at single packets and single CVs; this needs a whole session, a new object with the CVs written by the old one, and a second session", "anchors": ["include/dcc/rx/crtp_base.hpp: logonEnable (921-964), logonStore (1150-1177), init (48-100), executeOperationsAddressed", "include/dcc/address.hpp: decode_address (65-94)"]}
{"id": "C90", "title": "On the main a decoder does what its CVs say, and the CVs are what it was told", "statement": "A command station sends driving commands, consist control packets and CV accesses in the long and the short form to any locomotives. A decoder outside service mode whose class is a memory of CVs should behave like an abstract locomotive that only has CVs and a count of equal CV packets: it obeys its own number, the number of its consist and 0, as the CVs are at that moment; a consist control packet or the second of two equal CV packets changes the CVs unless they are locked; nothing else changes them, and nothing else moves the locomotive. Two locomotives in one consist, one the other way round, should do the same with opposite directions. After the long address was sent twice in the short form, the decoder should have the new number and no longer the old one. The only orders that may make it fault are those after which its CVs have no address. In a consist, speed and direction should be governed by the consist alone, and the normal direction should be the same there and for commands to all locomotives. After a consist control packet the decoder should be in the consist the packet names. All this should hold whatever else is called meanwhile, as long as automatic logon assigns no address.", "quantifier": "all sequences of orders, all interleavings of calls, all CVs, all station configurations", "why_tests_cant": "the tests look at single packets with fixed CVs; here packets change the CVs that decide about the next packets", "anchors": ["include/dcc/rx/crtp_base.hpp: executeOperationsAddressed (337-376), consistControl (433), cvLong (640), cvShort (679), countOwnEqualCvPackets (860)", "include/dcc/tx/crtp_base.hpp: transmit"]}
{"id": "C91", "title": "One disturbed bit on the track costs one packet and does nothing else", "statement": "One bit of a packet on the track is read the wrong way round. If it is a data bit, exactly this packet should be lost. If it is the zero between two bytes, the bytes before it should be taken for a packet only if there are three or more and their checksum is valid, and nothing else should be lost. If it is the end bit, this packet and, if its preamble is too short, the next one should be lost. If it is one of the first bits of the preamble, the packet should arrive if ten bits of the preamble are left. Whatever was disturbed, all packets behind the first undisturbed one should arrive. A packet with one disturbed bit should never move a locomotive other than as meant, and should not make the decoder read behind the end of the packet.", "quantifier": "all packets, all bits, all transmitter configurations, all packets behind it, all interleavings of calls, all CVs", "why_tests_cant": "the tests feed whole packets without errors; the effect of each bit for each packet cannot be enumerated", "anchors": ["include/dcc/rx/crtp_base.hpp: receive (120-173), time2bit", "include/dcc/tx/timings.hpp: packet2timings"]}
{"id": "C92", "title": "Exactly the packets in the signal arrive, whatever the signal is", "statement": "For every sequence of measured durations, noise included, the packets that arrive should be exactly those an independent reading of the signal finds: durations that are neither 52..64 us nor 90..10000 us do not count; ten ones or more, a zero, then bytes whose bits are the second halves, each followed by a zero or, after the last, a one; at least three bytes and a valid checksum. So other durations may come anywhere, and each packet takes at least 76 half bits.", "quantifier": "all sequences of durations, all states between two packets, all interleavings of other calls except disable", "why_tests_cant": "the sequences of durations are unbounded, and tests feed well-formed ones", "anchors": ["include/dcc/rx/crtp_base.hpp: receive (120-173)", "include/dcc/rx/timing.hpp: time2bit"]}
{"id": "C93", "title": "BiDi transmissions fit their channels and the cutout", "statement": "Whatever a decoder transmits in a cutout should be over before its channel ends: at 250000 baud (40 us for each byte) what is begun at TTS1 or TTS2 should end by TTC1 or TTC2. And in every history of a command station with BiDi enabled the track should be without power from before it announces a channel until what is transmitted in that channel is over, with channel 1 over before channel 2 is announced.", "quantifier": "all histories of the decoder and of the command station, all configurations, all positions in the signal, all delays up to 33 us (channel 1) and 38 us (channel 2); configurations made later differ in durations and preamble only (C121 has the others)", "why_tests_cant": "tests have no clock, and no test runs a decoder and a command station together; histories are unbounded", "anchors": ["include/dcc/bidi/timing.hpp", "include/dcc/bidi/baudrate.hpp", "include/dcc/bidi/channel1.hpp", "include/dcc/bidi/channel2.hpp", "include/dcc/tx/crtp_base.hpp: bidiTiming (111-144)", "include/dcc/rx/crtp_base.hpp: biDiChannel1, biDiChannel2"]}
{"id": "C94", "title": "A detector on the track shows the right address and values", "statement": "A detector that reads channel 1 should show, in every history, exactly the addresses the decoder announces: the number of its assigned, consist or primary address, in order and complete; a detector that misses messages or is switched on later should never show a wrong one. The values a command station reads in channel 2 (speed, quality of service, temperature, track voltage, others) should be exactly those the decoder's user handed to datagram and the queue accepted, in order.", "quantifier": "all histories from power-up, all CVs and user classes, all subsets of messages heard, all values datagram may be given", "why_tests_cant": "tests look at single transmissions; what a detector concludes from several, and from several with gaps, needs all histories and all subsets", "anchors": ["include/dcc/rx/crtp_base.hpp: adrHigh, adrLow, appAdr, dyn, datagram, biDiChannel1, biDiChannel2", "include/dcc/bidi/dyn.hpp", "include/dcc/bidi/datagram.hpp"]}
{"id": "C95", "title": "Cutouts, the clock and random numbers have no influence on what a decoder does", "statement": "Two decoders of the same kind (or one decoder twice) get the same calls of init, enable, disable, receive, execute and callbacks, but any number of datagram, biDiChannel1 and biDiChannel2 calls anywhere in between, any times of the clock and any results of rand(). As long as the user's class does not care about what it transmits and no run faults, all other calls of the user's class (direction, speed, functions, service mode, CV reads and writes, acknowledgements) are the same, with the same arguments and in the same order, and so are addresses, configuration, queue, mode and logon state.", "quantifier": "all states, all histories, all user classes, all placements of BiDi calls, all times and random numbers", "why_tests_cant": "this is about pairs of executions of any length; tests compare single executions with expected results", "anchors": ["include/dcc/rx/crtp_base.hpp: all public methods"]}
{"id": "C96", "title": "A decoder that is switched off and on carries on as before", "statement": "A decoder whose user class is a memory of CVs is switched off and on again while it waits for a packet outside service mode, with page register 1 and without automatic logon having begun. From then on it should behave as if nothing had happened: the same calls of the user's class (except for transmissions) and the same CVs for every continuation.", "quantifier": "all CVs, all histories before and after the interruption, all placements of BiDi calls, all times and random numbers", "why_tests_cant": "compares any continuation of any history with the same continuation of a new object", "anchors": ["include/dcc/rx/crtp_base.hpp: init, countOwnEqualCvPackets, all public methods"]}
{"id": "C97", "title": "Logging on fast again and again leaves the stored number and the decoder's own address as they were", "statement": "A decoder that has station, session and the number n of a logon in its CVs is switched on and hears LOGON_ENABLE of that station in the same session or one of the next four, then commands. Afterwards its CVs should hold the same station and number with the new session, and its own address, selected by CV29 and held in CV1 or CV17 and CV18, should be the one it had before.", "quantifier": "all numbers below 32768, all CVs otherwise, all sequences of commands, any number of such sessions", "why_tests_cant": "needs several lives of a decoder, each starting with the CVs of the one before", "anchors": ["include/dcc/rx/crtp_base.hpp: logonEnable (921-964), logonStore (1150-1177), init (48-100)", "include/dcc/address.hpp: decode_address (65-94), operator=="]}
{"id": "C98", "title": "A decoder logs on again when the command station or its session is another one", "statement": "A decoder that hears LOGON_ENABLE of a station other than the one it knows, or of that station in a session that is neither the one it knows nor one of the next four, should answer with its unique ID (outside its backoff), whether or not it has logged on before.", "quantifier": "all histories of the decoder before, all sequences of logon packets, idle packets and commands, all stations and sessions", "why_tests_cant": "the tests send single logon packets to a decoder just constructed; they have no second command station", "anchors": ["include/dcc/rx/crtp_base.hpp: logonEnable (921-964), logonSelect (969)"]}
{"id": "C99", "title": "Interrupts between the accesses of the thread do not change what a decoder does", "statement": "receive and the BiDi calls run in interrupts that come between any two accesses of execute, init, enable, disable and the callbacks. Whenever the thread is in no call, the decoder (CVs, addresses, configuration, mode, counted CV packets, calls of the user's class with their answers) should be as if there were no interrupts and the packets had come one by one, each executed before the next; so a locomotive obeys its orders one after the other.", "quantifier": "all interleavings of interrupts with the accesses of the thread, all packets and half bit durations, all CV contents, all queue sizes", "why_tests_cant": "the tests call receive and execute one after the other in one thread; no test has an interrupt inside execute", "anchors": ["include/dcc/rx/crtp_base.hpp: execute (181), executeThreadMode (274), executeOperations (289), executeService (313), receive (120), logonStore (1150)"]}
{"id": "C100", "title": "When asynchronous CV methods call their callbacks has no influence on what a decoder does", "statement": "The user's class may read and write CVs with asynchronous methods that return at once and call a callback later. With such methods, and whenever the callbacks are called, in any order, repeatedly or never, a decoder that gets the same signal makes the same calls as one with synchronous methods, apart from answers to the command station (acknowledgements and BiDi), and has the same CVs, addresses and configuration.", "quantifier": "all signals and calls, all CV contents, all points in time at which the callbacks are called and all values passed to them, all mixtures of synchronous and asynchronous methods", "why_tests_cant": "the mock class of the tests has no asynchronous methods at all", "anchors": ["include/dcc/rx/crtp_base.hpp: cvVerifyImpl (730, 744), cvWrite (757), cvWriteImpl (777, 791)", "include/dcc/rx/async_readable.hpp", "include/dcc/rx/async_writable.hpp", "README.md: Optional"]}
{"id": "C101", "title": "A decoder is one small machine: mode, page, packet counter, CVs and the value waiting", "statement": "As long as automatic logon assigns no address, everything a decoder does about any packet, in operations mode and in service mode, depends only on its CVs, whether it is in service mode, the page register, the CV packet counted last and how often it came, and the value waiting to be transmitted. Each packet executed changes these as RCN-211, 212, 214, 215 and 216 say and leads to exactly the calls of the user's class described there; nothing else the decoder is told or asked changes them.", "quantifier": "all histories of calls (signals, cutouts, init, enable, disable, any order), all packets of any length and contents, all CV contents", "why_tests_cant": "the tests check single packets from a fresh state; the space of packets times states (mode, counter, page, lock, addresses) is far too large, and interactions such as a register write between two direct mode packets are not tried", "anchors": ["include/dcc/rx/crtp_base.hpp: executeThreadMode (274), executeOperations (289), executeService (313), executeOperationsAddressed (337)", "include/dcc/rx/crtp_base.hpp: cvLong (640), cvShort (679), cvVerify (721), cvWrite (757), countOwnEqualCvPackets (860)"]}
{"id": "C102", "title": "Whatever packets a command station is given, a decoder does with them what the abstract machine of C101 does", "statement": "A command station accepts packets of any kind except automatic logon, for locomotives, accessories or service mode, and transmits; a decoder measures the times of the track signal with an error of up to 4 us. Then the decoder executes the packets in the order in which they were accepted, with idle packets in between, none twice and none lost; the calls of the user's class, the CVs and the answers after the cutouts are those of the abstract machine of C101 for these packets. In a main loop that calls execute after every call of receive there is a fault exactly if the abstract machine has one.", "quantifier": "all histories of the station, all valid packets, all configurations of the station, all measurement errors up to 4 us, all CV contents, all calls of the decoder in between", "why_tests_cant": "the tests of the transmitter and the receiver are separate, and each of them checks a few packets", "anchors": ["include/dcc/tx/crtp_base.hpp: packet (45), bytes (52), transmit (61)", "include/dcc/rx/crtp_base.hpp: receive (120), execute (181)"]}
{"id": "C103", "title": "A command station programs a decoder on the main over the track and hears what is in its CVs", "statement": "A command station transmits packets accepted from the builders; a decoder measures the times of the track signal with an error of up to 4 us, calls channel 2 once in the cutout after each packet and executes each packet before the second half bit after its end. Then every packet sent is heard in order: first its cutout, then its execution, with the calls and the messages of the abstract machine of C101, and a fault only if that has one. If the CV accesses in the long form to the decoder's address and to all are those of some requests (reads sent at least once, writes outside the configuration at least twice), with any other packets in between, then there is no fault, the station never hears anything but the answers to these requests in their order (an ACK, then the value), and once all packets are sent and executed it has heard all of them and the CVs are those after the writes.", "quantifier": "all histories of the station, all requests, all packets in between, all measurement errors up to 4 us, all CV contents, all other calls of the decoder in between", "why_tests_cant": "no test connects a transmitter to a receiver; the answers of the receiver are tested for single packets", "anchors": ["include/dcc/tx/crtp_base.hpp: packet (45), bytes (52), transmit (61)", "include/dcc/rx/crtp_base.hpp: receive (120), execute (181), biDiChannel2 (236)"]}
{"id": "C104", "title": "Sessions on the programming track in register and page mode", "statement": "A programmer sends reset packets and then requests in register and page mode (the page register written at least once, the access sent at least once, reset packets in between). Then each request is performed as often as its packet was sent and nothing else is called; the CVs afterwards and the requests acknowledged are those of the same requests in direct mode; page mode reaches CV1 to CV1020; of the values tried for a CV exactly the one it has is acknowledged, and a value written is the one read afterwards. The same holds for the packets a command station transmits and a decoder with a main loop measures with an error of up to 4 us. (False for CV1021 to CV1024 and for acknowledging the page register; a speed command for locomotives 112 to 127 right after a reset packet to all is taken for such a request by all decoders on the main.)", "quantifier": "all requests, all CV contents, all numbers of repetitions and reset packets, all histories of the station, all measurement errors up to 4 us", "why_tests_cant": "tests try single register mode packets; a session has any number of requests and repetitions", "anchors": ["include/dcc/rx/crtp_base.hpp: registerMode (803), executeService (313), cvVerify (721), cvWrite (757)"]}
{"id": "C105", "title": "What makes a locomotive run and what stops it", "statement": "Whatever the user's class does and whatever is called in any order, a speed is told only when execute obeys a speed command (126, 28 or 14 speed steps, with or without functions) for everyone or for a number the decoder listens to at that time, in operations mode; exactly one is told: zero for stop, -1 for emergency stop, a positive one for any other speed code. So a locomotive that stands starts only if such a command with a speed in it is executed, and a stop to everyone stops every decoder in operations mode whatever its address, CVs and logon state. Over the track: if the station accepted a stop and behind it no command with a speed for the decoder, the locomotive stands once the station has got no more commands for long enough. (False: a packet with a byte too few runs the locomotive with its check byte as speed; a stop to everyone is ignored in service mode, into which a reset packet brings a running locomotive without stopping it; with 14 speed steps it switches F0.)", "quantifier": "all user classes, all reachable states, all calls in any order, all packets, all histories of the station", "why_tests_cant": "that nothing else starts a locomotive is a statement about all packets, all states and all orders of calls", "anchors": ["include/dcc/rx/crtp_base.hpp: advancedOperations (441), speedAndDirection (502), directionSpeed (852), executeOperationsAddressed (337), executeService (313)"]}
{"id": "C106", "title": "The check byte is no data", "statement": "For every instruction that has all the bytes RCN-212 and RCN-214 give it, what execute does to the decoder and calls of the user's class does not depend on the byte behind it, the check byte, except that CV packets are compared as a whole; the same in service mode. (False for packets with a byte too few: 03 3F and check byte 3C runs locomotive 3, 03 12 with 11 puts it into consist 17, 03 EC 02 with ED writes CV3, 03 DE with DD switches functions, 03 F2 with F1 writes CV23.)", "quantifier": "all user classes, all states, all addresses, all instructions with all their bytes, all check bytes", "why_tests_cant": "tests only send packets with the right number of bytes and one check byte each", "anchors": ["include/dcc/rx/crtp_base.hpp: executeOperationsAddressed (337), consistControl (433), advancedOperations (441), featureExpansion (575), cvLong (640), cvShort (679), registerMode (803)"]}
{"id": "C107", "title": "A locomotive ends up as it was asked last", "statement": "For its direction, its speed and each single function, what a decoder's user class was told last is what the last executed command set that sets it at all, and what it was before if none does; commands for other locomotives and idle packets change nothing. What a command sets is read from RCN-212: emergency stop leaves the direction alone, a function group sets exactly its functions, with 14 speed steps F0 belongs to the speed command. So packets that are lost do no harm as long as the last command that matters is heard once. Over the track: once the station has got no more commands for long enough, every decoder that hears the signal has everything as the last command accepted for it set it. (False: with 14 speed steps a command for F0 to F4 does not decide about F0.)", "quantifier": "all reachable states, all histories without init, disable and logon packets, all lists of legal commands, all histories of the station", "why_tests_cant": "commands overlap (F0 to F4 and F0 to F7, 28 and 126 speed steps) and come in any order and number; the statement holds for every function number and every such list", "anchors": ["include/dcc/rx/crtp_base.hpp: advancedOperations (441), speedAndDirection (502), functionGroup (538), directionSpeed (852)", "include/dcc/tx/crtp_base.hpp: packet (45), transmit (61)"]}
{"id": "C108", "title": "A locomotive put on the live track", "statement": "A decoder switched on while the command station is sending begins to listen in the middle of a half bit, a packet or a cutout. It receives no packet that was not sent, and all packets but the first ones, in order: a packet of which at most 13 half bits were over when it began to listen is received. So it misses only commands of which the transmission had begun; everything the station had in its queue, or accepts later, is done. Whatever one of those commands sets is in the end as the last of all commands set it, as if the locomotive had been there all the time. Once the station has got no more commands for a while, all of those commands are done.", "quantifier": "all histories of a station that does not change its orientation, all moments to begin, both polarities seen last and any time since, all measured times within the limits of RCN-210, all decoder histories", "why_tests_cant": "the moment of switching on is arbitrary; a packet's second half could look like a preamble with a start bit (a check byte of ones and the end bit are 18 of 20 half ones needed), so every packet content and every moment matter", "anchors": ["include/dcc/rx/crtp_base.hpp: receive (120)", "include/dcc/tx/crtp_base.hpp: transmit (61)"]}
{"id": "C109", "title": "No command waits longer than the packets in front of it", "statement": "A packet a command station has accepted is sent whole once the time of as many packets as there were in the queue and one more is over, whatever the station is asked for afterwards: later packets never push it back. No packet takes longer than 41.1 ms with its cutout. A decoder measuring the track signal has done what the command asks for after the time of `spare + 1` packets more, `spare` being the calls of execute its main loop leaves out.", "quantifier": "all queue sizes, all histories of a station that keeps its orientation before and after the moment in question, all legal commands, all measured times within RCN-210, all decoders with a memory of their own, all schedules of the main loop that are late at most as often as there is room in the queue", "why_tests_cant": "a bound on the delay is a statement about every continuation, also one that keeps the queue full for ever; tests send one packet and look for it", "anchors": ["include/dcc/tx/crtp_base.hpp: packet, transmit (45-84)", "include/dcc/rx/crtp_base.hpp: receive, execute"]}
{"id": "C110", "title": "A decoder that lost the track finds back into step", "statement": "A decoder whatever state it is in - in the middle of a packet of which it heard the beginning, or after noise on a dirty rail - hears the signal of a command station again, with its cutouts, beginning anywhere. At most one packet should arrive that is put together from what was heard before and behind the gap, as long as its checksum fits. Of the packets sent only those should be missed that had begun when the signal was heard again, and at most one more; all others should arrive once and in order.", "quantifier": "all states of a decoder that can be reached, all queue sizes, all histories of a station that keeps its orientation, every call of transmit at which the decoder hears the signal again, either polarity seen then, anything for the first interval, all measured times within RCN-210, all interleavings with other calls but disable", "why_tests_cant": "the tests begin with a new decoder and whole packets; the states a disturbance can leave and the moments the signal can come back are too many to enumerate", "anchors": ["include/dcc/rx/crtp_base.hpp: receive (120-173), reset", "include/dcc/tx/crtp_base.hpp: transmit (45-84)"]}
{"id": "C111", "title": "Automatic logon over the track", "statement": "A command station that is not the one a decoder knows (or is, in a session that is neither the one known nor one of the next four) is given logon packets (select, assign, enable), idle packets and commands in any order and transmits them with cutouts. A decoder on the track measures the half bits, calls both channels in each cutout and executes in time. There should be no fault; the decoder hears the packets sent with idle packets in between; in every cutout that is over the station hears exactly what RCN-218 says the decoder has to answer; and the locomotive does what the commands to the address it had at that time ask, from its assignment on those to its new number. Two decoders with one and the same address but different unique IDs can be driven apart after that.", "quantifier": "all queue sizes of the station and of at least 2 of the decoder, all configurations and histories of a station that keeps its orientation, all lists of logon items and commands RCN-212 and RCN-218 allow in which no decoder is assigned before it was selected, all users' classes and unique IDs, either polarity, all measured times within RCN-210, all programs that call the channels and execute in time, all random numbers drawn for the backoff", "why_tests_cant": "the tests call receive with packets laid out for one decoder and check single datagrams; dialogues, moments within the signal, random backoffs and pairs of decoders cannot be enumerated", "anchors": ["include/dcc/rx/crtp_base.hpp: receive, biDiChannel1/2 (230-248), executeAutomaticLogon (373-420), logonEnable, logonSelect, logonAssign (916-1008), appLogon (1108-1119)", "include/dcc/tx/crtp_base.hpp: transmit (45-84), bidiTiming (108-144)"]}
{"id": "C112", "title": "On a track without disturbances the quality of service says that nothing is lost", "statement": "A decoder listens to a command station that may be given any packets and has cutouts or not; the half bits are measured within the limits of RCN-210, and of the cutouts anything may be measured. Every packet is received, so at all times the quality of service it reports (RCN-217, dynamic data with subindex 7) should be 0. This holds if no packet is executed while the next one is being received, in particular for a main loop that calls execute after every call of receive. (False otherwise: execution in the middle of the hundredth packet makes it 1. It is never anything but 0, 1 or 255.)", "quantifier": "all queue sizes of the station, all its configurations and histories that keep the orientation, all accepted packets of 3 to 18 bytes with checksum, all measured times within RCN-210, either polarity, all users' classes, all interleavings with other calls but disable as long as the receive queue does not run full", "why_tests_cant": "the value is determined after a hundred packets; the tests send a few packets each and never read it", "anchors": ["include/dcc/rx/crtp_base.hpp: receive (143, 164), updateQos (1176-1184), datagram (210-222)", "include/dcc/tx/crtp_base.hpp: transmit (45-84)"]}
{"id": "C113", "title": "A disturbance costs the packets it hits and at most the next one", "statement": "A decoder hears the signal of a command station, with its cutouts. Somewhere the signal is disturbed - a dirty piece of rail, a gap, sparks - and the decoder measures anything for a while, or nothing; then it hears the signal again, beginning anywhere. All packets that were over when the disturbance began should arrive. Of the others only those that had begun when it ended should be missed, and at most one more; no packet should arrive twice or out of order. If no packet the station was asked for begins during the disturbance, at most two are missed. Packets that were not sent should arrive only if they are put together of what was measured during the disturbance and around it: at most two, and one more for every 76 half bits of the disturbance.", "quantifier": "all queue sizes, all histories of a station that keeps its orientation, every call of transmit at which the disturbance begins and every later one at which it ends, all durations measured meanwhile, either polarity seen afterwards, all other measured times within RCN-210, all interleavings with other calls but disable", "why_tests_cant": "the tests feed whole undisturbed packets to a new decoder; the moments and contents of a disturbance cannot be enumerated", "anchors": ["include/dcc/rx/crtp_base.hpp: receive (120-173), reset", "include/dcc/tx/crtp_base.hpp: transmit (45-84)"]}
{"id": "C114", "title": "The number a decoder is assigned is the one it listens to, and the one it announces is its own", "statement": "LOGON_ASSIGN carries an address of 14 bits, 0 to 10239 a long one, with 56 in the upper six bits a short one; with 11 in front it holds for the session, with anything else it becomes the decoder's own address. Afterwards the decoder should listen to this number and no other, and if it became its own address, still do so when switched on again. The answer to SELECT announces an address in the same coding, which should be the decoder's own. (Holds for long addresses given for the session and for all short ones. False for long addresses that are to become the decoder's own: their first byte is taken for an address, so that the decoder listens to another number or to nothing at all. The number announced is right, but a short address is announced as a long one.)", "quantifier": "all states a decoder can reach, all addresses and upper bits, all times and random numbers of the call that completes the packet", "why_tests_cant": "the tests assign the address 1000 only; the second byte, the upper bits and the kinds of addresses make 65536 cases for each state", "anchors": ["include/dcc/rx/crtp_base.hpp: executeAutomaticLogon (379-424), logonSelect (969-986), logonAssign (993-1008)", "include/dcc/address.hpp: decode_address", "include/dcc/rx/crtp_base.hpp: logonStore (1150-1174), init (52-63)"]}
{"id": "C115", "title": "Repeated commands make good what a disturbance cost", "statement": "A decoder in operations mode is in whatever state a disturbance left it when it hears the signal of a command station again; the station is given driving commands only, and what the disturbance put together is, if anything, a driving command too. When the decoder has executed everything, each thing (direction, speed, every function) that is set by a command heard is as the last of them set it, and of the commands only those had been missed that had begun when the signal came back, and at most one more. So a command that is given twice after that, with anything in between, is done if no later command sets the same thing.", "quantifier": "all states a decoder can reach in operations mode, all queue sizes, all histories of a station that keeps its orientation, all lists of legal driving commands, every call of transmit at which the signal is heard again, either polarity, all measured times within RCN-210, all interleavings with calls but init and disable, every setting", "why_tests_cant": "the tests have no disturbed signal and no repeated commands; moments, states and lists of commands cannot be enumerated", "anchors": ["include/dcc/rx/crtp_base.hpp: receive (120-173), execute, reset", "include/dcc/tx/crtp_base.hpp: packet, transmit (45-84)"]}
{"id": "C116", "title": "Packets may be executed several at a time", "statement": "The manual suggests to lengthen the queue and to execute several packets at once. If batches of k calls of execute are made, none of them directly behind a packet, with less than k times the duration of the shortest packet in between (4014 us for any signal), and the queue has room for more than k packets, then receive never meets a full queue and after each batch everything that arrived has been executed; with a command station all commands received are done. A loop while (decoder.execute()); is no such batch: it stops at the first packet that is not for the decoder. (So the reading that such a loop empties the queue is false.)", "quantifier": "all signals, all queue sizes, all k and pauses, all reachable states with an empty queue, any other calls but disable between the batches; all histories of a command station, all lists of legal driving commands", "why_tests_cant": "the tests execute each packet when it has been received", "anchors": ["README.md: Installation, Usage", "include/dcc/rx/crtp_base.hpp: receive (120-173), execute (274-283)"]}
{"id": "C117", "title": "Decoders that log on at the same time are told apart", "statement": "A decoder that may log on and has not been selected answers at least one of any 64 LOGON_ENABLE packets in a row. Having answered one and drawn r, it is silent for the next r (modulo 8, 16, 32 and from then on 64) and answers the one after them. So of any number of decoders that answered together the one that drew the smallest number, if there is only one, transmits alone with its next answer. (False without that: decoders that draw the same numbers answer in the same cutouts forever. Nothing in the library seeds rand(), so decoders of one kind that are switched on together do draw the same numbers unless the program around them seeds it.)", "quantifier": "any number of decoders, all user classes, all histories before, all random numbers, all stations and sessions that are no fast logon", "why_tests_cant": "the tests have one decoder, and the backoff is tested alone, with rand() seeded by the test", "anchors": ["include/dcc/rx/backoff.hpp: Backoff (21-46)", "include/dcc/rx/crtp_base.hpp: logonEnable (921-964)"]}
{"id": "C118", "title": "Answers to tip-off searches are up to date", "statement": "A tip-off search that is to be answered (C50) is answered exactly once, in the next cutout after a broadcast in which channel 2 is attended to. The answer gives the address and the seconds since the last gap as they are when it is transmitted. (False: it gives those of the time the search was executed, and nothing ever discards an answer. A decoder whose station stopped searching transmits the old answer after the next broadcast, say an emergency stop an hour later, although a new gap has begun a new count. True if no packet was executed in between and the addresses are the same.)", "quantifier": "all user classes, all histories before and between, all times and random numbers", "why_tests_cant": "the test takes far less than a second, so the answer to the first of its searches and the answer to the last are the same", "anchors": ["include/dcc/rx/crtp_base.hpp: tipOffSearch (899-914), appTos (1100-1106), updateTimepoints (1189-1197)"]}
{"id": "C119", "title": "Channel 1 announces the address the decoder has now", "statement": "When a decoder gets another address (by its CVs, a consist or logon), the datagrams it transmits in channel 1 are those of the new address from then on, and none once the announcements are switched off. (False: the pair queued for the old address is still transmitted; a locomotive that was put into consist 5 announces itself as locomotive 3 in two more cutouts. True after that: at most two datagrams are old, all others are the pair of the new address, over and over; and at most two come after the announcements are switched off.)", "quantifier": "all user classes, all histories before the change, all histories after it in which the address stays the same", "why_tests_cant": "the tests do not change the address between the cutouts", "anchors": ["include/dcc/rx/crtp_base.hpp: adr (1011-1032), appAdr (1065-1070), biDiChannel1 (225-233)"]}
{"id": "C120", "title": "What a decoder reports again and again is heard", "statement": "Values a program hands to datagram() again and again are transmitted in channel 2 again and again, all of them, and no value waits longer than half as many cutouts as the queue has places. (The second part is true. The first is false: a program that reports three or more values once before every cutout fills the queue; from then on each cutout makes room for two datagrams, which the first two values take, and the third is never heard again. datagram() is meant to refuse everything once the queue is full and until it is empty, but it notices a full queue only if no cutout came since. True for reports made while nothing waits, and for programs that report at least twice before every cutout.)", "quantifier": "all user classes, all sizes of the queue, all values, all histories before and between", "why_tests_cant": "the tests fill the queue and empty it again; no test reports and attends to cutouts in turn until the queue is full", "anchors": ["include/dcc/rx/crtp_base.hpp: datagram (210-222), dyn (1058-1062), appDyn (1087-1097)"]}
{"id": "C121", "title": "A command station can be configured while it transmits", "statement": "However often init() is called between calls of transmit(), the calls biDiStart, biDiChannel1, biDiChannel2 and biDiEnd come as whole cutouts one after the other, and the two halves of a bit have opposite polarity. (False: a station configured without BiDi after biDiStart never calls biDiEnd, whatever it transmits afterwards; one told to invert its outputs between the halves of a bit drives both with the same polarity. True of the cutouts as long as BiDi is not switched off between biDiStart and biDiEnd. True altogether if the configurations differ in durations and preamble only: then whole packets and whole cutouts follow each other, every packet with the durations configured when it was accepted.)", "quantifier": "all sizes of the queue, all histories of init, packet and transmit, all configurations", "why_tests_cant": "the tests call init once, before the first transmit", "anchors": ["include/dcc/tx/crtp_base.hpp: init (34-40), transmit (61-84), packetTiming (96-106), bidiTiming (111-144)"]}
{"id": "C122", "title": "Switching automatic logon off gives a decoder its own address back", "statement": "A decoder that was assigned an address by automatic logon obeys its own address (CV1 or CV17/18) again once automatic logon is switched off in CV28 or CV29. (False: while it is switched off the assigned address stays as it is, whatever arrives and whatever is called, init() included; packets for the decoder's own number are ignored. A locomotive 3 that was assigned 1000 obeys 1000 only, and as the packets that could assign it another address are ignored now, until the power is switched off. Once a decoder has been selected only LOGON_ASSIGN changes the address at all. True for decoders that had no address assigned when it was switched off: they obey their own address and that of their consist.)", "quantifier": "all user classes, all histories before, all histories during which automatic logon stays switched off", "why_tests_cant": "the tests do not write CVs after a logon", "anchors": ["include/dcc/rx/crtp_base.hpp: init (52-102), logonEnable (921-964), logonSelect (969-986), logonAssign (993-1008), executeOperations"]}
{"id": "C123", "title": "A locomotive that logs on runs the same way round as before", "statement": "Automatic logon does not change which way round a locomotive runs: it is told forward by the number assigned to it and runs as CV29 bit 0 says. (False: LOGON_ASSIGN with an address the locomotive is to take for its own replaces the whole primary address, the mark that it runs the other way round included. CV29 keeps the bit. So a locomotive that runs the other way round turns when it is assigned an address, and turns again at the next init(), which happens when one of its CVs is written. No other packet changes the mark. An address for the session only leaves it alone, and a decoder with an assigned address runs the way the mark says.)", "quantifier": "all user classes, all reachable states, all durations and random numbers", "why_tests_cant": "no test assigns an address to a decoder whose CV29 has bit 0 set", "anchors": ["include/dcc/rx/crtp_base.hpp: init (63), directionSpeed (852-857), logonAssign (993-1008), logonStore (1150-1178)", "include/dcc/address.hpp: Address (51-54), decode_address"]}
{"id": "C124", "title": "A broadcast makes a locomotive run the same way round as its own number", "statement": "A speed and direction sent to everybody calls direction() with the same direction as if it were sent to the locomotive's own number. (False: the direction for every number but the locomotive's own is taken from CV19 bit 7, that of the consist, for the broadcast as well, whether there is a consist or not. A locomotive whose CV29 has bit 0 set and which is in no consist is told forward by a broadcast and runs, or after a broadcast stop points, the other way than when it is told by its own number. True if both bits are equal.)", "quantifier": "all user classes, all states, all speeds of 14, 28 and 126 steps, all times and random numbers", "why_tests_cant": "broadcast speeds are not tested with CV29 bit 0 set", "anchors": ["include/dcc/rx/crtp_base.hpp: directionSpeed (852-857), executeOperationsAddressed (336-370)"]}
{"id": "C125", "title": "A consist control packet concerns the locomotive with that number only", "statement": "Executing a consist control packet changes the consist of the decoder whose own address is the one in the packet and of no other. (False: the address is not looked at again, so one packet for everybody puts all locomotives on the track into the same consist, and one packet for the number of a consist moves all its members into another, although CV accesses through that number are rightly ignored. True for all other numbers: the addresses and the configuration stay as they are.)", "quantifier": "all memories of CVs, all histories without an assigned address before, all packets, times and random numbers", "why_tests_cant": "consist control packets are not tested", "anchors": ["include/dcc/rx/crtp_base.hpp: executeOperationsAddressed (336-370), consistControl (430-435), cvLong, cvShort (679-680)"]}
{"id": "C126", "title": "A consist may have the number of one of its locomotives", "statement": "A locomotive whose consist has the number of the locomotive itself can still be programmed under its number and runs in the consist the way round that CV19 says. (False: a CV access is ignored if its number is that of the consist, even if it is the locomotive's own number as well, so until it leaves the consist none of its CVs can be read or written on the main. And the direction is the one CV29 says; that in the consist control packet is stored and of no account. True for the other locomotives of the consist: they run the way round CV19 says.)", "quantifier": "all user classes, all reachable states, all CV accesses and 126-step speeds, times and random numbers", "why_tests_cant": "the tests use different numbers", "anchors": ["include/dcc/rx/crtp_base.hpp: directionSpeed (852-857), cvLong (640-673), cvShort (679-680), consistControl (430-435)"]}
{"id": "C127", "title": "A command of automatic logon can be sent again if its answer was lost", "statement": "If a command station does not hear the answer to LOGON_ASSIGN or SELECT and sends the same packet again, the decoder has the same addresses afterwards as before and answers again. (True for LOGON_ASSIGN: own, consist and assigned address are the same after the second packet. True for SELECT before an address is assigned: it changes nothing but that the decoder is selected and the same answer waits. False for SELECT later: once an address is assigned the decoder does not answer SELECT any more.)", "quantifier": "all user classes, all reachable states, all packets, durations and random numbers", "why_tests_cant": "the tests send every packet once", "anchors": ["include/dcc/rx/crtp_base.hpp: logonSelect (969-986), logonAssign (993-1008)"]}
{"id": "C128", "title": "A decoder whose address is taken back can log on anew", "statement": "LOGON_ASSIGN with the address 0 takes an assigned address back: it is acknowledged, the decoder obeys its own number again and no other but 0, and it logs on anew when it is asked to. (True but for the last: it is still taken for selected and for having an address, so it answers neither LOGON_ENABLE, of whatever command station, nor SELECT until it is switched off; only another LOGON_ASSIGN changes anything.)", "quantifier": "all user classes, all reachable states in which the answer before has been transmitted, all packets, durations and random numbers", "why_tests_cant": "no test assigns the address 0", "anchors": ["include/dcc/rx/crtp_base.hpp: executeAutomaticLogon (379-424), logonEnable (921-964), logonSelect (969-986), logonAssign (993-1008)"]}
{"id": "C129", "title": "The switches of a decoder are the ones in its CVs whatever automatic logon does", "statement": "With a CV store that behaves like memory, after any calls among which init() was called, the speed step mode, the lock and the switches for BiDi channel 1, channel 2 and automatic logon are the ones in CV15, CV16, CV28 and CV29, and the decoder runs the other way round only if CV29 bit 0 says so, also when automatic logon assigned addresses and stored them in CVs in between; and the consist is the one in CV19. (True for the switches and the decoder's own direction. Not for the consist: LOGON_ASSIGN sets the consist address to 0 and CV19 is written 0 later, but the mark that the consist runs the other way round stays until init() is called. A locomotive taken out of such a consist by an assignment runs backward when everybody is told to run forward.)", "quantifier": "all user classes with a memory of CVs, all histories of calls with init", "why_tests_cant": "tests check one setting after one write; the statement is about all histories, and no test assigns an address to a locomotive in a consist", "anchors": ["include/dcc/rx/crtp_base.hpp: init (52-102), logonAssign (993-1008), logonStore (1150), cvWrite (757-771), directionSpeed (852-857)", "include/dcc/address.hpp: Address::operator="]}
{"id": "C130", "title": "The command station and the session a decoder remembers are the ones in its CVs", "statement": "With a CV store that behaves like memory, after any calls among which init() was called, the command station ID and the session ID a decoder compares LOGON_ENABLE with are the ones in CV65297 to CV65299: no CV access of any packet or programmer reaches those CVs, and what a logon stores there is taken over at the same time. So switching a decoder off and on does not change which command station and session it knows.", "quantifier": "all user classes with a memory of CVs, all histories of calls with init", "why_tests_cant": "one test stores one logon; the statement is about all histories, with all CV numbers and index registers", "anchors": ["include/dcc/rx/crtp_base.hpp: init (52-102), cvLong (640-673), cvShort (679-714), registerMode (803-828), logonStore (1150)"]}
