{"id": "C01", "title": "CAN identifier fields are independent and recoverable", "statement": "For every 32-bit identifier: the hash is its low 16 bits, the response flag bit 16, the command bits 17-24, the priority bits 25-28. Setting hash, response or command makes the matching getter return the new value and leaves every other field and every other bit of the raw value unchanged; building from (command, hash) yields exactly command*2^17+hash; a raw identifier, and one given as 4 big-endian bytes, is returned unchanged by makeIdentifier.", "quantifier": "all 2^32 identifiers, all commands, hashes and response flags, all 4-byte buffers", "why_tests_cant": "2^32 identifiers x 2^24 setter arguments; tests pin two identifiers", "anchors": ["lib/RR32Can/messages/Identifier.h:Identifier", "lib/RR32Can/messages/Identifier.cpp:GetIdentifier"]}
{"id": "C02", "title": "Loc-ID encoding round-trips", "statement": "Writing any 32-bit loc-id into a payload and reading it back gives the same loc-id; it is stored big-endian in bytes 0-3; dlc and bytes 4-8 are untouched.", "quantifier": "every 32-bit loc-id and every previous payload", "why_tests_cant": "2^32 values times all prior payloads", "anchors": ["lib/RR32Can/messages/Data.h:setLocid", "lib/RR32Can/messages/Data.h:getLocid"]}
{"id": "C03", "title": "Payload and frame equality", "statement": "Comparing two payloads never reads out of bounds when dlc <= 9, is an equivalence relation there, and says equal exactly when dlc and the first dlc bytes agree; frames are equal exactly when identifiers and payloads are. With equal dlc > 9 the comparison reads past the 9-byte buffer.", "quantifier": "all pairs (triples) of payloads/frames", "why_tests_cant": "relation over all pairs of payloads; out-of-range dlc never tested", "anchors": ["lib/RR32Can/messages/Data.h:operator==", "lib/RR32Can/messages/CanFrame.h:operator=="]}
{"id": "C04", "title": "Sender hash of a station", "statement": "After begin(uuid, ...) a station's sender hash is ((uuid>>3)&0x1F00)|(uuid&0x7F); two 16-bit UUIDs get the same hash exactly when they agree on bits 0-6 and 11-15, so stations numbered consecutively from the same base within a 128-block have distinct hashes. For general 32-bit UUIDs the hash is the XOR of the two halves of the squeezed UUID.", "quantifier": "all 16-bit UUIDs (pairs), all 32-bit UUIDs", "why_tests_cant": "2^32 pairs", "anchors": ["lib/RR32Can/util/utils.h:computeSenderHash", "lib/RR32Can/Station.cpp:Station::begin"]}
{"id": "C05", "title": "Human and machine addresses", "statement": "Converting a human address to a machine address and back (and vice versa) is the identity for every 32-bit value, for turnouts and for locomotives; machine = human - 1 for every human address >= 1; human address 0 wraps to 0xFFFFFFFF.", "quantifier": "all 32-bit addresses", "why_tests_cant": "2^32 values incl. wrap-around; tests check one", "anchors": ["lib/RR32Can/types/TurnoutTypes.cpp:HumanTurnoutAddress", "lib/RR32Can/types/LocomotiveTypes.cpp:HumanLocomotiveAddress"]}
{"id": "C06", "title": "Turnout address protocol tagging", "statement": "setProtocol(p) on any turnout address keeps the low 10 bits as numeric address and makes getRailProtocol report p's family (MM1/MM2/MFX -> MM1, SX1/SX2 -> SX1, DCC -> DCC); it is idempotent and a later setProtocol wins completely. For UNKNOWN the reported protocol is UNKNOWN.", "quantifier": "all 32-bit addresses, all (pairs of) protocols", "why_tests_cant": "all addresses x all protocol sequences", "anchors": ["lib/RR32Can/types/TurnoutTypes.h:setProtocol", "lib/RR32Can/types/TurnoutTypes.cpp:getAccessoryLocIdMask", "lib/RR32Can/messages/TurnoutPacket.h:getRailProtocol"]}
{"id": "C07", "title": "Locomotive address protocol tagging", "statement": "setProtocol(p) on any locomotive address keeps the low 10 bits, puts the result into p's documented address range, is idempotent, and a later setProtocol wins completely; an address that already lies in protocol p's range is unchanged by setProtocol(p).", "quantifier": "all 32-bit addresses, all (pairs of) protocols", "why_tests_cant": "all addresses x all protocol sequences; code truncates 14-bit MFX/DCC addresses, which only an input above 1023 shows", "anchors": ["lib/RR32Can/types/LocomotiveTypes.h:setProtocol", "lib/RR32Can/types/LocomotiveTypes.cpp:getLocomotiveLocIdMask"]}
{"id": "C08", "title": "Turnout packet accessors", "statement": "In a turnout packet the address, direction and power fields are independent: each setter is read back by its getter for every value and leaves the other fields unchanged; a freshly initialised packet has dlc 6 and every byte not written is zero; two packets compare equal exactly when address, direction and power-on agree; getRailProtocol is determined by the address ranges 0x2800-0x2BFF, 0x3000-0x33FF, 0x3800-0x3FFF.", "quantifier": "all payloads, addresses, directions, power values", "why_tests_cant": "product of all field values", "anchors": ["lib/RR32Can/messages/TurnoutPacket.h:TurnoutPacket", "lib/RR32Can/messages/TurnoutPacket.cpp:operator=="]}
{"id": "C09", "title": "S88 event accessors and builder", "statement": "Device, contact, states and time of an S88 event are independent fields that read back what was written (ids truncated to 16 bits); subtype REQUEST/EVENT/RESPONSE maps to dlc 4/5/8 and back, any other dlc reads as RESPONSE; the S88Event frame builder decodes back to its arguments, and its short form reports the opposite old state.", "quantifier": "all payloads, ids, states, times, subtypes", "why_tests_cant": "product of all field values", "anchors": ["lib/RR32Can/messages/S88Event.h:S88Event", "lib/RR32Can/util/constexpr.h:S88Event"]}
{"id": "C10", "title": "Frame builders decode to their arguments", "statement": "Frames built by util (LocoSpeed, LocoDirection, LocoFunction, Turnout, System_*, Config_Data_Stream, Request_Config_Data) have the stated command, response flag, hash 0 and priority 0, a dlc <= 8, zero in unused bytes, and carry exactly their arguments (velocity clamped to 1000).", "quantifier": "all arguments", "why_tests_cant": "products of 32-bit uids, velocities, functions, strings", "anchors": ["lib/RR32Can/util/constexpr.h"]}
{"id": "C11", "title": "HandlePacket decision table", "statement": "For every frame with dlc <= 8 handed to a station with all callbacks installed, exactly the documented callback is invoked with exactly the decoded arguments, or none: system GO/STOP/HALT/EMERGENCY_STOP (dlc >= 5), accessory switch, direction (dlc 5, values 1-3), speed (dlc 6), function (dlc 6), config data (only while a download is in progress). Every other command, subcommand or length invokes nothing.", "quantifier": "all frames, all stations, download in progress or not", "why_tests_cant": "2^32 identifiers x 2^72 payloads", "anchors": ["lib/RR32Can/Station.cpp:HandlePacket", "lib/RR32Can/Station.cpp:HandleSystemCommand", "lib/RR32Can/Station.cpp:HandleLocoDirection", "lib/RR32Can/Station.cpp:HandleLocoSpeed", "lib/RR32Can/Station.cpp:HandleLocoFunction", "lib/RR32Can/Station.cpp:HandleAccessoryPacket", "lib/RR32Can/Station.cpp:HandleConfigDataStream"]}
{"id": "C12", "title": "Missing callbacks are tolerated on receive", "statement": "A station on which some callbacks are not installed ignores the corresponding messages: no received frame (dlc <= 8) makes it call through a null callback.", "quantifier": "all frames, all subsets of installed callbacks", "why_tests_cant": "all frames x all callback subsets", "anchors": ["lib/RR32Can/Station.cpp:HandleLocoDirection", "lib/RR32Can/Station.cpp:HandleLocoFunction"]}
{"id": "C13", "title": "Only the dlc bytes of a received frame matter", "statement": "Two received frames that compare equal (same identifier, same dlc, same first dlc bytes) cause exactly the same callbacks with the same decoded values, whatever stale bytes lie behind the dlc.", "quantifier": "all pairs of equal frames, all stations", "why_tests_cant": "relation between pairs of frames with arbitrary stale bytes", "anchors": ["lib/RR32Can/Station.cpp:HandlePacket", "lib/RR32Can/Station.cpp:HandleAccessoryPacket"]}
{"id": "C14", "title": "Receiving never transmits and never reconfigures", "statement": "Handling a received frame never sends a frame and does not change the station's callbacks or sender hash, so stations cannot create packet storms.", "quantifier": "all frames, all station states", "why_tests_cant": "all frames", "anchors": ["lib/RR32Can/Station.cpp:HandlePacket"]}
{"id": "C15", "title": "No out-of-bounds access on receive", "statement": "Handling any frame with dlc <= 8 performs no out-of-bounds access. A frame object with dlc > 9 makes the text/hex dump read past the payload buffer exactly in the dump branches.", "quantifier": "all frames incl. out-of-range dlc", "why_tests_cant": "all frames; out-of-range dlc untested", "anchors": ["lib/RR32Can/Station.cpp:HandlePacket", "lib/RR32Can/messages/Data.cpp"]}
{"id": "C16", "title": "Requests are passive at every receiver", "statement": "Frames sent by RequestEngineDirection/Velocity/Function/AllFunctions, RequestEngine and RequestEngineList, and the System_GetStatus frame, when handled by any other station, cause no callback there at all.", "quantifier": "all engines, functions, names, offsets, receiver states", "why_tests_cant": "all request arguments x all receivers", "anchors": ["lib/RR32Can/Station.cpp", "lib/RR32Can/util/constexpr.h:System_GetStatus"]}
{"id": "C17", "title": "Every transmitted frame is well-formed", "statement": "In every history of API calls, every frame a station transmits through its send/request methods has priority 0, response flag clear, the sender hash of the most recent begin(), dlc <= 8, and goes to the tx callback given to that begin(). SendPacket, which is handed a complete frame, replaces the hash and leaves the rest of the frame as it was given.", "quantifier": "all API call histories, all arguments", "why_tests_cant": "unbounded histories", "anchors": ["lib/RR32Can/Station.cpp"]}
{"id": "C18", "title": "Send/receive loopback", "statement": "A command sent by one station and handled by another with callbacks installed is reported there with exactly the sent arguments: velocity min(v,1000) for the engine's uid, direction FORWARD/REVERSE/CHANGE, function and value, GO/STOP as request, emergency stop as velocity 0, accessory address|protocol tag, direction and power. Directions UNCHANGED/UNKNOWN/unnamed are not sent at all.", "quantifier": "all engines, velocities, directions, functions, accessory commands, all sender hashes and receivers", "why_tests_cant": "product of 32-bit uids and all arguments", "anchors": ["lib/RR32Can/Station.cpp"]}
{"id": "C19", "title": "Accessory command carries the requested address and protocol", "statement": "SendAccessoryPacket(addr, protocol, ...) transmits a frame whose protocol decodes to the requested protocol family and whose numeric address is addr.", "quantifier": "all addresses, protocols, directions, powers", "why_tests_cant": "all 32-bit addresses; the code ORs the tag without masking", "anchors": ["lib/RR32Can/Station.cpp:SendAccessoryPacket", "lib/RR32Can/types/TurnoutTypes.h:getNumericAddress"]}
{"id": "C20", "title": "Engine list request", "statement": "RequestEngineList(offset, cb) for every 8-bit offset: resets the previously registered consumer, registers cb, starts it before anything is transmitted, then transmits exactly two frames: 'loknamen' (8 bytes) and '<offset> 2' in decimal with dlc equal to the text length.", "quantifier": "all 256 offsets, all previous station states", "why_tests_cant": "all offsets x states", "anchors": ["lib/RR32Can/Station.cpp:RequestEngineList"]}
{"id": "C21", "title": "Engine request", "statement": "RequestEngine(engine, cb) does nothing at all if the engine has no name or a download is in progress; otherwise it resets the previous consumer, registers and starts cb before transmitting, then transmits exactly three 8-byte frames: 'lokinfo', bytes 0-7 and bytes 8-15 of the zero-padded engine name. The name the master sees is the engine name whenever it has at most 16 characters.", "quantifier": "all engine names, all station states", "why_tests_cant": "all names of all lengths", "anchors": ["lib/RR32Can/Station.cpp:RequestEngine"]}
{"id": "C22", "title": "All-functions request", "statement": "RequestEngineAllFunctions transmits exactly 16 frames, for function numbers 0..15 in order, each identical to what RequestEngineFunction would transmit.", "quantifier": "all engines, station states", "why_tests_cant": "all uids", "anchors": ["lib/RR32Can/Station.cpp:RequestEngineAllFunctions"]}
{"id": "C23", "title": "Config request life cycle at the station", "statement": "Finish/Abort/begin/new request reset the currently registered config consumer exactly once and detach it; a second Finish or Abort has no effect; config data frames reach a consumer only while it is registered and processing.", "quantifier": "all histories of API calls", "why_tests_cant": "unbounded histories", "anchors": ["lib/RR32Can/Station.cpp:FinishCurrentConfigRequest", "lib/RR32Can/Station.cpp:AbortCurrentConfigRequest", "lib/RR32Can/Station.cpp:HandleConfigDataStream"]}
{"id": "C24", "title": "Buffer never leaves its memory", "statement": "For every sequence of operations (push, pop, set, erase, append, move, find, sub-view) on a buffer of capacity 1..255, the length never exceeds the capacity and no operation accesses memory outside the buffer; indexing and at() are in bounds whenever the buffer is not empty (on an empty buffer index wraps to 255).", "quantifier": "all operation sequences, all capacities and contents", "why_tests_cant": "unbounded operation sequences", "anchors": ["lib/RR32CanEngineDb/util/BufferManager.cpp", "lib/RR32CanEngineDb/util/BufferManager.h"]}
{"id": "C25", "title": "Buffer refines a bounded byte queue", "statement": "Every buffer operation acts on the visible content like on a plain list: push_back(char) appends unless full, push_back(buffer) appends the longest prefix that fits and returns its length, pop_front(n) drops n, erase empties, set(s) stores the longest prefix of s of at most capacity-1 bytes; move_back conserves all bytes and their order across both buffers.", "quantifier": "all contents, all arguments", "why_tests_cant": "all contents and op sequences", "anchors": ["lib/RR32CanEngineDb/util/BufferManager.cpp", "lib/RR32CanEngineDb/util/BufferManager.h"]}
{"id": "C26", "title": "Bytes behind the content are zero", "statement": "After erase(), for every sequence of operations the bytes behind the content are zero, so whenever the buffer is not full data() is a NUL-terminated C string equal to the content (for content without NUL).", "quantifier": "all operation sequences", "why_tests_cant": "unbounded operation sequences", "anchors": ["lib/RR32CanEngineDb/util/BufferManager.cpp:erase", "lib/RR32CanEngineDb/util/BufferManager.cpp:pop_front", "lib/RR32CanEngineDb/util/BufferManager.cpp:set", "lib/RR32CanEngineDb/util/BufferManager.h:data"]}
{"id": "C27", "title": "findFirstOf finds the first match", "statement": "findFirstOf returns the least index >= offset whose byte equals the character (is one of the characters, for sets of fewer than 256), and npos exactly if there is none; npos can never be confused with an index.", "quantifier": "all contents, characters, offsets", "why_tests_cant": "all contents", "anchors": ["lib/RR32CanEngineDb/util/BufferManager.cpp:findFirstOf"]}
{"id": "C28", "title": "Sub-buffer views", "statement": "subBufferManager(start,end) shows exactly the bytes [start,end) clamped to the capacity, is empty if end < start, its capacity is what remains, and it never reaches outside the parent's memory.", "quantifier": "all buffers and offsets", "why_tests_cant": "all offsets x contents", "anchors": ["lib/RR32CanEngineDb/util/BufferManager.cpp:subBufferManager"]}
{"id": "C29", "title": "CRC is CRC-16/CCITT-FALSE", "statement": "For every byte sequence the CRC equals the remainder of (message * x^16 + 0xFFFF * x^(8n)) modulo x^16+x^12+x^5+1 over GF(2).", "quantifier": "all byte sequences of all lengths", "why_tests_cant": "unbounded messages", "anchors": ["lib/RR32CanEngineDb/util/Crc.cpp:updateCrc", "lib/RR32CanEngineDb/util/Crc.h"]}
{"id": "C30", "title": "CRC detects bursts", "statement": "Two messages of equal length that differ only inside a window of 16 consecutive bits (in particular in one byte, or in two adjacent bytes) never have the same CRC, whatever precedes and follows.", "quantifier": "all messages, all positions, all error patterns within the window", "why_tests_cant": "unbounded messages x positions x patterns", "anchors": ["lib/RR32CanEngineDb/util/Crc.cpp:updateCrc"]}
{"id": "C31", "title": "CRC detects odd numbers of bit errors", "statement": "Two messages of equal length differing in an odd number of bits never have the same CRC.", "quantifier": "all messages of all lengths, all odd error patterns", "why_tests_cant": "unbounded", "anchors": ["lib/RR32CanEngineDb/util/Crc.cpp:updateCrc"]}
{"id": "C32", "title": "CRC detects double bit errors", "statement": "Two messages of equal length that differ in exactly two bits less than 32767 bit positions apart never have the same CRC.", "quantifier": "all messages of all lengths, all pairs of positions", "why_tests_cant": "unbounded", "anchors": ["lib/RR32CanEngineDb/util/Crc.cpp:updateCrc"]}
{"id": "C33", "title": "Text parser is total and memory safe", "statement": "addText terminates without any out-of-bounds access for every input chunk in every reachable parser state, and afterwards the work buffer is empty.", "quantifier": "all sequences of chunks of any bytes and lengths, resets and consumer changes", "why_tests_cant": "unbounded histories, loop termination", "anchors": ["lib/RR32CanEngineDb/util/TextParser.cpp:addText", "lib/RR32CanEngineDb/util/TextParser.cpp:processBuffer", "lib/RR32CanEngineDb/util/TextParser.cpp:findToken"]}
{"id": "C34", "title": "Text parser is independent of chunking", "statement": "Splitting the same byte stream into different chunks (each at most 30 bytes) yields the same events in the same order up to the first parse error, the same final state, and a parse error for one splitting exactly if for the other.", "quantifier": "all byte streams, all pairs of chunkings", "why_tests_cant": "all chunkings of unbounded streams", "anchors": ["lib/RR32CanEngineDb/util/TextParser.cpp:addText"]}
{"id": "C35", "title": "Text parser round trip", "statement": "For every document of [section], .key=value and .key lines with arbitrary filler between them, with section and key names of at most 11 bytes and values of at most 26 bytes, fed in any chunking, the consumer is told exactly the document's (section,key,value) entries in order, keys without '=' with empty value, and the parser is ready for the next line.", "quantifier": "all documents, all fillers, all chunkings", "why_tests_cant": "unbounded documents", "anchors": ["lib/RR32CanEngineDb/util/TextParser.cpp"]}
{"id": "C36", "title": "Parse errors are sticky and exactly the oversized tokens", "statement": "A stream drives the parser into ERROR exactly when some section or key exceeds 11 bytes, some value exceeds 26 bytes, or a chunk exceeds 30 bytes; the consumer is then told (ERROR,ERROR,ERROR), every later addText reports exactly one further ERROR event and nothing else, until reset() which restores the initial state.", "quantifier": "all streams and histories", "why_tests_cant": "unbounded streams", "anchors": ["lib/RR32CanEngineDb/util/TextParser.cpp:reportParseError", "lib/RR32CanEngineDb/util/TextParser.cpp:findToken", "lib/RR32CanEngineDb/util/TextParser.cpp:addText"]}
{"id": "C37", "title": "Reported tokens are clean", "statement": "Every reported non-error event has section and key of at most 11 and value of at most 26 bytes, without the delimiters that end them (']' resp. '=' and newline resp. newline).", "quantifier": "all streams, chunkings", "why_tests_cant": "unbounded streams", "anchors": ["lib/RR32CanEngineDb/util/TextParser.cpp"]}
{"id": "C38", "title": "Reported tokens are NUL-terminated", "statement": "Every section, key and value buffer handed to a consumer is a NUL-terminated string, so that consumers may use C string functions on it.", "quantifier": "all streams", "why_tests_cant": "needs a token of exactly the buffer capacity", "anchors": ["lib/RR32CanEngineDb/util/TextParser.cpp", "lib/RR32CanEngineDb/util/TextParser.h:kValueLength"]}
{"id": "C39", "title": "Parser reset forgets the past", "statement": "After reset() a text parser and a stream parser behave for every future input exactly like a fresh one, whatever was fed before.", "quantifier": "all histories before, all inputs after", "why_tests_cant": "unbounded histories", "anchors": ["lib/RR32CanEngineDb/util/TextParser.cpp:reset", "lib/RR32CanEngineDb/util/ConfigDataStreamParser.h:reset"]}
{"id": "C40", "title": "A download completes exactly when complete and CRC-correct", "statement": "After a started stream receives a first packet announcing 8n bytes (n>0) with CRC c followed by n 8-byte data packets, the consumer is told every entry of the payload and then exactly one end notification: complete if c is the CRC of the payload, aborted otherwise; no end notification is given earlier.", "quantifier": "all payloads of all lengths, all announced CRCs", "why_tests_cant": "unbounded payloads", "anchors": ["lib/RR32CanEngineDb/util/ConfigDataStreamParser.cpp:addMessage"]}
{"id": "C41", "title": "Every announced length terminates", "statement": "A stream whose announced length is n bytes ends (complete or aborted) after ceil(n/8) data packets.", "quantifier": "all announced lengths", "why_tests_cant": "all 2^32 lengths; only lengths not divisible by 8 show the underflow", "anchors": ["lib/RR32CanEngineDb/util/ConfigDataStreamParser.cpp:addMessage"]}
{"id": "C42", "title": "Corrupted downloads are never reported complete", "statement": "If the payload received differs from the sent payload within any 16-bit window, or in an odd number of bits, the download is reported aborted, never complete.", "quantifier": "all payloads, all such corruptions", "why_tests_cant": "unbounded payloads x corruptions", "anchors": ["lib/RR32CanEngineDb/util/ConfigDataStreamParser.cpp:addMessage", "lib/RR32CanEngineDb/util/Crc.cpp"]}
{"id": "C43", "title": "Zero-length streams are CRC checked", "statement": "A stream announcing zero bytes is reported complete only if the announced CRC is the CRC of the empty message (0xFFFF).", "quantifier": "all announced CRCs", "why_tests_cant": "65536 CRC values, only mismatching ones show it", "anchors": ["lib/RR32CanEngineDb/util/ConfigDataStreamParser.cpp:addMessage"]}
{"id": "C44", "title": "At most one end notification per started stream", "statement": "In every history of calls on a stream parser, the number of end notifications (complete or aborted) never exceeds the number of started streams, every notification goes to the consumer attached at that time, and while idle or done no message causes any consumer call.", "quantifier": "all histories of startStream/startStream(consumer)/addMessage/reset", "why_tests_cant": "unbounded histories", "anchors": ["lib/RR32CanEngineDb/util/ConfigDataStreamParser.cpp:addMessage", "lib/RR32CanEngineDb/util/ConfigDataStreamParser.h:reset"]}
{"id": "C45", "title": "Malformed packets abort the stream", "statement": "While waiting for the first packet, any packet whose dlc is not 6 or 7, and while waiting for data any packet whose dlc is not 8, gives exactly one aborted notification, detaches the consumer, and every later packet until a new start is ignored.", "quantifier": "all packets, all states", "why_tests_cant": "all dlc values x states x continuations", "anchors": ["lib/RR32CanEngineDb/util/ConfigDataStreamParser.cpp:addMessage", "lib/RR32CanEngineDb/util/ConfigDataStreamParser.h:reset"]}
{"id": "C46", "title": "A requested consumer is served", "statement": "After parser.startStream(consumer) followed by Station::RequestEngineList/RequestEngine with that parser, the consumer receives the entries and the end notification of the next well-formed stream.", "quantifier": "all histories of the station before the request", "why_tests_cant": "depends on history: a parser that is still registered from an earlier request is reset and loses its consumer", "anchors": ["lib/RR32Can/Station.cpp:RequestEngineList", "lib/RR32Can/Station.cpp:RequestEngine", "lib/RR32CanEngineDb/util/ConfigDataStreamParser.h:startStream", "lib/RR32CanEngineDb/util/ConfigDataStreamParser.h:reset"]}
{"id": "C47", "title": "Only the named keys change the engine", "statement": "While downloading an engine only the entries uid, typ and adresse of section lokomotive change the engine, and change exactly uid, protocol string and address; name, velocity, direction and functions never change through entries; keys of nested lines (starting with '.') and parse errors never change it.", "quantifier": "all entry sequences", "why_tests_cant": "all keys and sections; prefixes (even the empty key) match through strncmp with the received length", "anchors": ["lib/RR32CanEngineDb/LocoConsumer.cpp:consumeConfigData"]}
{"id": "C48", "title": "Hexadecimal and decimal values are decoded exactly", "statement": "For every 32-bit value v every hexadecimal text of v (upper or lower case, leading zeros, with or without '0x') decodes to v as uid and address on 32- and 64-bit platforms; every engine count n in decimal decodes to n modulo 256 as long as it fits into a long, and to 255 beyond.", "quantifier": "all 2^32 values, all counts, both word sizes", "why_tests_cant": "2^32 values", "anchors": ["lib/RR32CanEngineDb/LocoConsumer.cpp:consumeConfigData", "lib/RR32CanEngineDb/util/BufferManager.h:asUint8"]}
{"id": "C49", "title": "End-to-end engine download", "statement": "For every uid, address, protocol name of at most 7 bytes and any other unrelated entries, a station that requested an engine and receives the master's frames for the engine file (any filler, padded to 8-byte packets, right CRC) ends with the engine holding exactly that uid, address and protocol, full details known, and one complete notification.", "quantifier": "all uids, addresses, protocol names, extra entries, fillers", "why_tests_cant": "unbounded documents", "anchors": ["lib/RR32Can/Station.cpp", "lib/RR32CanEngineDb/util/ConfigDataStreamParser.cpp", "lib/RR32CanEngineDb/util/TextParser.cpp", "lib/RR32CanEngineDb/LocoConsumer.cpp"]}
{"id": "C50", "title": "Engine browser table", "statement": "The engine list keeps the first two names received since it was cleared, in order; names received when it is full change nothing; numloks/wert sets the engine count and nothing else; other sections and parse errors change nothing.", "quantifier": "all entry sequences", "why_tests_cant": "unbounded entry sequences", "anchors": ["lib/RR32CanEngineDb/LocoListConsumer.cpp:consumeConfigData", "lib/RR32CanEngineDb/LocoListConsumer.h:findFirstFreeEntry"]}
{"id": "C51", "title": "End-to-end engine list download", "statement": "A station with a cleared engine list that requests the list and receives the master's frames naming k engines (k arbitrary) and the total count ends with the first min(k,2) names stored in order, the count known, and one complete notification.", "quantifier": "all name lists, counts, fillers", "why_tests_cant": "unbounded documents", "anchors": ["lib/RR32Can/Station.cpp", "lib/RR32CanEngineDb/util/ConfigDataStreamParser.cpp", "lib/RR32CanEngineDb/util/TextParser.cpp", "lib/RR32CanEngineDb/LocoListConsumer.cpp"]}
{"id": "C52", "title": "Effect of an aborted download", "statement": "When a list download is aborted, the list is cleared (no names, count 0, not complete) before the application is notified; when an engine download is aborted, the engine is not marked fully known.", "quantifier": "all histories leading to an abort", "why_tests_cant": "unbounded histories", "anchors": ["lib/RR32CanEngineDb/LocoListConsumer.h:setStreamAborted", "lib/RR32CanEngineDb/LocoConsumer.cpp:setStreamAborted"]}
{"id": "C53", "title": "A stream with a parse error is not reported complete", "statement": "If the text of a stream is unparsable (token too long), the download is not reported complete.", "quantifier": "all streams", "why_tests_cant": "needs oversized token with right CRC", "anchors": ["lib/RR32CanEngineDb/util/ConfigDataStreamParser.cpp:addMessage", "lib/RR32CanEngineDb/util/TextParser.cpp:reportParseError"]}
{"id": "C54", "title": "Engine names", "statement": "setName stores the first 32 characters, always NUL-terminated, marks the name known and clears all other data; setNameConditional changes nothing and returns false exactly if a name is already known and its first 32 characters equal the new one, otherwise it acts as setName and returns true; calling it twice returns false the second time.", "quantifier": "all names of all lengths, all previous states", "why_tests_cant": "all strings", "anchors": ["lib/RR32Can/Locomotive.h:setName", "lib/RR32Can/Locomotive.h:setNameConditional"]}
{"id": "C55", "title": "Protocol string is a C string", "statement": "getProtocolString of an engine is NUL-terminated whatever protocol text was stored.", "quantifier": "all protocol texts", "why_tests_cant": "needs a text of 8 or more characters", "anchors": ["lib/RR32Can/Locomotive.h:setProtocolString", "lib/RR32Can/Locomotive.cpp:print"]}
{"id": "C56", "title": "Function bits", "statement": "For function numbers below 32, setFunction(f,v) makes getFunction(f)=v, leaves all other functions and data unchanged, is idempotent, and last write wins in any sequence of writes; numbers >= 32 are outside the defined behaviour of the shift.", "quantifier": "all sequences of writes, all function numbers", "why_tests_cant": "unbounded write sequences", "anchors": ["lib/RR32Can/Locomotive.h:setFunction", "lib/RR32Can/Locomotive.h:getFunction"]}
{"id": "C57", "title": "Direction changes", "statement": "changeDirection swaps FORWARD and REVERSE, is its own inverse, and leaves any other direction and all other data unchanged; switchDirection agrees with it on FORWARD/REVERSE and answers UNKNOWN otherwise.", "quantifier": "all directions, all engine data", "why_tests_cant": "all histories of toggles", "anchors": ["lib/RR32Can/Locomotive.h:changeDirection", "lib/RR32Can/types/LocomotiveTypes.cpp:switchDirection"]}
{"id": "C58", "title": "An uninitialised consumer is never read", "statement": "Using LocoConsumer or LocoListConsumer through the stream parser never reads an object field before it was set, provided setEngine and setStreamEndCallback (list: setStreamEndCallback) were called first.", "quantifier": "all histories after these calls", "why_tests_cant": "depends on indeterminate memory", "anchors": ["lib/RR32CanEngineDb/LocoConsumer.h:currentEngine", "lib/RR32CanEngineDb/util/ConfigDataConsumer.h:streamEndCallback_", "lib/RR32CanEngineDb/LocoListConsumer.h"]}
{"id": "C59", "title": "Ending the request from inside the end-of-stream callback", "statement": "An application that calls Station::notifyConfigStreamReceived() from its stream-end callback (complete or aborted) gets control back after finitely many calls.", "quantifier": "all reasons for the end of a stream", "why_tests_cant": "re-entrancy; only abort-by-reset recurses", "anchors": ["lib/RR32Can/Station.h:notifyConfigStreamReceived", "lib/RR32CanEngineDb/util/ConfigDataStreamParser.h:reset", "lib/RR32Can/Station.cpp:FinishCurrentConfigRequest"]}
{"id": "C60", "title": "Protocol address helpers", "statement": "MM2/DCC/SX1/MFX address helpers tag an address below the range size into the matching range and keep the low bits; DecoderBaseAddress is the largest multiple of 4 not above the address.", "quantifier": "all 32-bit addresses", "why_tests_cant": "2^32 addresses", "anchors": ["lib/RR32Can/util/constexpr.h:MM2_Turnout", "lib/RR32Can/util/constexpr.h:DecoderBaseAddress"]}
{"id": "C61", "title": "Other traffic and downloads do not disturb each other", "statement": "Control traffic means received frames with at most 8 data bytes of commands other than Config Data Stream, and all commands and engine state requests sent. For every history without begin(), at a station with tx and engine callbacks, removing all control traffic changes neither the state of the station, parsers, consumers and engines, nor what consumers and end-of-stream callbacks are told, nor whether and how a fault occurs. Conversely, in every fault-free history of control traffic and stream frames, removing the stream frames does not change which other callbacks are called, with which arguments and in which order. In particular an engine or list download that succeeds on a quiet bus (under the conditions of C49 and C51) also succeeds, with the same result, with control traffic anywhere between its frames.", "quantifier": "all histories, all interleavings", "why_tests_cant": "unbounded number of interleavings", "anchors": ["lib/RR32Can/Station.cpp:HandlePacket", "lib/RR32CanEngineDb/util/ConfigDataStreamParser.cpp:addMessage"]}
{"id": "C62", "title": "End notices on an unreliable bus", "statement": "In every history of calls on a stream parser (start, attach, packets, reset, in any order), whatever packets were lost, repeated, reordered or mixed with those of other streams: a call reports 'complete' exactly if a consumer is attached, the call is a packet, and the packets since the last start are one whole stream (a first packet, only 8-byte data packets, exactly the announced length, right checksum if there is data); it reports 'aborted' exactly if a stream was open and the call is a reset or a packet that neither leaves it open nor makes it whole. A stream of which some but not all packets arrive is never reported complete, whether nothing or other streams follow. The same at a station after a request, with other traffic in between: whenever the run does not fault, the consumer is told complete, or aborted, exactly under these conditions on the stream frames received.", "quantifier": "all histories of a parser; all sequences of frames at a station", "why_tests_cant": "unbounded histories and packet contents", "anchors": ["lib/RR32CanEngineDb/util/ConfigDataStreamParser.cpp:addMessage", "lib/RR32CanEngineDb/util/ConfigDataStreamParser.h:startStream", "lib/RR32Can/Station.cpp:HandleConfigDataStream"]}
{"id": "C63", "title": "No station answers on its own", "statement": "On a bus of any number of stations and other devices, from any state: receiving a frame never puts a frame on the bus; a call of an application puts at most 1 frame on it for a command or single request, 16 for a request of all functions, 2 for the engine list, 3 for an engine, and none otherwise. So over any history the number of frames is bounded by what applications and other devices asked for, and left alone the installation comes to rest: n turns of a receive loop take the next n frames, as far as there are any, and change neither the bus nor the other nodes.", "quantifier": "all histories, any number of stations, arbitrary delays", "why_tests_cant": "a storm of answers needs several stations and unbounded histories", "anchors": ["lib/RR32Can/Station.cpp:HandlePacket", "lib/RR32Can/Station.cpp:RequestEngineAllFunctions"]}
{"id": "C64", "title": "A command at one station is heard at all others", "statement": "On a bus of stations that have a tx and an engine callback and no registered parser, whose applications only give commands and engine state requests, with other devices that send arbitrary frames of at most 8 bytes: whatever the order of calls and the delays in receiving, no station faults; at any time each application has been told a beginning of what the commands of the other stations and the frames of the other devices say (velocity limited to 1000, direction, function, emergency stop as velocity 0, go, stop, accessory address with tag, direction and power), in the order of sending, each once, and nothing else; once nothing of the others is left to receive it has been told all of it. A frame given to SendPacket, command or response, is put on the bus once, with the sender's hash.", "quantifier": "all interleavings of any number of stations and other devices", "why_tests_cant": "unbounded number of stations, commands and interleavings", "anchors": ["lib/RR32Can/Station.cpp:HandlePacket", "lib/RR32Can/Station.cpp:SendEngineVelocity", "lib/RR32Can/Station.cpp:SendAccessoryPacket"]}
{"id": "C65", "title": "Stations agree about the speed of an engine", "statement": "On such a bus, all stations that have received everything know the same about the speed of every engine: what the last command or frame that concerns it said. A station knows what its engine callback was told and what it sent itself, in that order of time.", "quantifier": "all interleavings of any number of stations and other devices", "why_tests_cant": "needs two stations that send at the same time", "anchors": ["lib/RR32Can/Station.cpp:SendEngineVelocity", "lib/RR32Can/Station.cpp:HandleLocoSpeed"]}
{"id": "C66", "title": "A payload dump shows the payload", "statement": "printAsHex prints for each of the first dlc bytes a space and the number (0x in front unless it is 0), so reading the numbers back gives exactly those bytes; printAsText prints exactly those bytes. For dlc up to 9. Two payloads have the same hex dump exactly if operator== calls them equal. A dlc above 9 reads outside the array.", "quantifier": "all payloads", "why_tests_cant": "256^8 payloads and all lengths", "anchors": ["lib/RR32Can/messages/Data.cpp:printAsHex", "lib/RR32Can/messages/Data.cpp:printAsText"]}
{"id": "C67", "title": "A printed identifier can be read back", "statement": "Reading the four numbers of Identifier::printAll gives the priority, command, response flag and hash bits of the identifier; two identifiers are printed alike exactly if their 29 bits agree.", "quantifier": "all 2^32 identifiers", "why_tests_cant": "2^29 values, injectivity concerns pairs", "anchors": ["lib/RR32Can/messages/Identifier.cpp:printAll"]}
{"id": "C68", "title": "The log of received frames is made of whole lines", "statement": "What the station prints for a received frame is nothing or ends with a newline.", "quantifier": "all frames, all station states", "why_tests_cant": "2^29 identifiers times 256^8 payloads", "anchors": ["lib/RR32Can/Station.cpp:HandlePacket", "lib/RR32Can/Station.cpp:HandleSystemCommand", "lib/RR32Can/Station.cpp:HandleConfigDataStream"]}
{"id": "C69", "title": "The log of an accessory frame is right", "statement": "In the text of TurnoutPacket::printAll the number after 'Turnout' is the address with its tag, after 'Position' the position, after 'Power' 1 if the power byte is not 0 and else 0, and after 'Human Value' the number of the turnout within its protocol, counted from 1. Behind the position are the words for it (red, green, yellow, white), and the words for the power end the text.", "quantifier": "all payloads", "why_tests_cant": "2^32 addresses, 256 positions", "anchors": ["lib/RR32Can/messages/TurnoutPacket.cpp:printAll", "lib/RR32Can/messages/TurnoutPacket.h:AddressAsHumanValue"]}
{"id": "C70", "title": "The log of a sent accessory command is right", "statement": "With LOG_CAN_OUT_MSG, the line printed for SendAccessoryPacket names the turnout address (below 2048) and the position the application asked for, and ends with whether the power was to be on.", "quantifier": "all addresses, protocols, positions and power values", "why_tests_cant": "unbounded combinations; the tests are compiled without this log", "anchors": ["lib/RR32Can/Station.cpp:SendAccessoryPacket"]}
{"id": "C71", "title": "The log of an engine is unambiguous", "statement": "The numbers in the log text of an engine are read back as its uid, address, velocity, direction and functions. Two engines with the same log text agree in availability and name, and if the details are known in uid, address, velocity, direction, functions and protocol; whatever characters the names have. The direction is one of the enumerators.", "quantifier": "all pairs of engines", "why_tests_cant": "injectivity over unbounded names and numbers", "anchors": ["lib/RR32Can/Locomotive.cpp:print"]}
{"id": "C72", "title": "The log of an engine list is unambiguous", "statement": "Two engine lists of the same size with the same printAll text have the same number of engines at the master and show the same names in the same slots. Before the first reset the list cannot be printed without reading an uninitialised field.", "quantifier": "all pairs of lists", "why_tests_cant": "injectivity over all names", "anchors": ["lib/RR32CanEngineDb/LocoListConsumer.cpp:printAll", "lib/RR32Can/Locomotive.cpp:print"]}
{"id": "C73", "title": "The log and the callbacks tell the same", "statement": "If system and engine callback are installed, the log says GO, STOP or Halt for a received frame exactly if the application is told on, off or all engines stopped. Printing reads outside an object for exactly the frames for which the handler does.", "quantifier": "all frames, all station states", "why_tests_cant": "2^29 identifiers times 256^8 payloads", "anchors": ["lib/RR32Can/Station.cpp:HandleSystemCommand", "lib/RR32Can/Station.cpp:HandlePacket"]}
{"id": "C74", "title": "Calling back changes nothing by itself", "statement": "The model in which every callback may call any public function runs a history exactly as the model without nested calls if no callback calls back: it returns the same state, and it faults if and only if that one faults, whatever the stack. With callbacks that call back, a history that ended ends in the same way on a larger stack.", "quantifier": "all histories, all programs, all stack depths", "why_tests_cant": "all call histories with all possible callback behaviours", "anchors": ["lib/RR32Can/Station.cpp", "lib/RR32CanEngineDb/util/TextParser.cpp:processBuffer", "lib/RR32CanEngineDb/util/ConfigDataStreamParser.cpp:addMessage"]}
{"id": "C75", "title": "Callbacks cannot corrupt memory by calling back", "statement": "Callbacks and consumers call any public functions from inside any call, including abort, new requests and received packets from inside consumeConfigData, nested as deeply as the stack allows. If attached consumers have been set up and engine objects have their declared arrays, no call ever writes behind an array, reads an unset field, shifts too far or loops for ever. If moreover the consumers are the application's, the unchecked callbacks are installed, names are terminated and frames have at most 9 bytes, every history returns or exhausts the stack.", "quantifier": "all programs, histories and stack depths", "why_tests_cant": "unbounded nesting of arbitrary callbacks", "anchors": ["lib/RR32CanEngineDb/util/TextParser.cpp:processBuffer", "lib/RR32CanEngineDb/util/TextParser.cpp:addText", "lib/RR32CanEngineDb/util/ConfigDataStreamParser.cpp:addMessage", "lib/RR32Can/Station.cpp:RequestEngine"]}
{"id": "C76", "title": "Callbacks called last run as if called afterwards", "statement": "If consumers do not call back while they are given an entry, a received frame that does not break off a stream is handled exactly as if no callback called back, and then what its callbacks call runs, in order.", "quantifier": "all programs, states and frames", "why_tests_cant": "all callback behaviours at all states", "anchors": ["lib/RR32Can/Station.cpp:HandlePacket", "lib/RR32CanEngineDb/util/ConfigDataStreamParser.cpp:addMessage"]}
{"id": "C77", "title": "A consumer can abort while it is given an entry", "statement": "A consumer that aborts the current request while it is given any entry of a data packet, having called nothing about the entries before, is told once that the stream was aborted and nothing else: none of the further entries of the packet, and no second end of the stream. The request is over and the parser is reset. Nothing else changes.", "quantifier": "all states in the middle of a stream, all packets, programs and stack depths", "why_tests_cant": "all reader states and packet contents, with all other callback behaviours", "anchors": ["lib/RR32CanEngineDb/util/TextParser.cpp:processBuffer", "lib/RR32CanEngineDb/util/ConfigDataStreamParser.cpp:addMessage", "lib/RR32Can/Station.cpp:AbortCurrentConfigRequest"]}
{"id": "C78", "title": "A consumer can make a new request while it is given an entry", "statement": "A consumer that, while it is given an entry, requests data and attaches a consumer to the parser gets the answer: the parser waits for the packets and nothing is told before they arrive.", "quantifier": "all states in the middle of a stream, all packets, programs and stack depths", "why_tests_cant": "all reader states and packet contents", "anchors": ["lib/RR32CanEngineDb/util/ConfigDataStreamParser.cpp:addMessage", "lib/RR32CanEngineDb/util/ConfigDataStreamParser.h:startStream", "lib/RR32Can/Station.cpp:RequestEngineList"]}
{"id": "C79", "title": "Consumers may call the library while they are given an entry", "statement": "Whatever callbacks call while a stream is received, the consumer is given all entries of all packets, in order, and is then told how the stream ended; the parser goes on as if nothing had been called.", "quantifier": "all programs, histories, packets, reader states and stack depths", "why_tests_cant": "unbounded interleavings of packets with arbitrary nested calls", "anchors": ["lib/RR32CanEngineDb/util/TextParser.cpp:processBuffer", "lib/RR32CanEngineDb/util/TextParser.cpp:addText", "lib/RR32CanEngineDb/util/ConfigDataStreamParser.cpp:addMessage"]}
{"id": "C80", "title": "Setting up a consumer changes what it says and nothing else", "statement": "setEngine, setStreamEndCallback, setStreamOffset, clearTable and reset change only the consumer they are called on: setEngine only its engine, setStreamEndCallback only its callback, setStreamOffset only its offset, clearTable only the names (all slots are empty then), reset the names, the count, the completeness and the offset, not the callback. RequestEngine for an engine without a name, or while the registered parser waits for frames, changes nothing and sends nothing.", "quantifier": "all program states, all consumers, all arguments", "why_tests_cant": "absence of other effects in all states", "anchors": ["lib/RR32CanEngineDb/LocoConsumer.h:setEngine", "lib/RR32CanEngineDb/util/ConfigDataConsumer.h:setStreamEndCallback", "lib/RR32CanEngineDb/LocoListConsumer.h:setStreamOffset", "lib/RR32CanEngineDb/LocoListConsumer.cpp:reset", "lib/RR32Can/Station.cpp:RequestEngine"]}
{"id": "C81", "title": "Going through the engine list page by page shows every engine of the master once, in order", "statement": "In whatever state the library is, an application that ends the last request (abort) and asks for two names from an offset sends a request that a master reads as exactly that; when the answer of the master has arrived, the table shows the names at that offset, the size of the database and that the stream is complete, and the end callback was called with OK. Pages at 0, 2, 4, ... concatenated are all names of the master in its order, for databases of up to 255 engines (the size is stored in a byte). Without ending the last request first, the same calls show nothing while the parser is registered.", "quantifier": "all masters (databases of up to 255 engines), all program states in which the objects are set up, all answers in the file format on the wire, all numbers of pages", "why_tests_cant": "databases, states before the session and file contents are unbounded; the request and the answer are related through text formats", "anchors": ["lib/RR32Can/Station.cpp:RequestEngineList", "lib/RR32CanEngineDb/LocoListConsumer.cpp:consumeConfigData", "lib/RR32CanEngineDb/LocoListConsumer.h:getNumEnginesKnownByMaster", "lib/RR32CanEngineDb/util/ConfigDataStreamParser.cpp:startStream"]}
{"id": "C82", "title": "Loading every engine from the list mirrors the database of the master", "statement": "In whatever state the library is, setting the engine of the consumer to one with the name in the table and requesting it sends a request that a master reads as one for the file of that engine; when the answer has arrived, the engine holds the uid, the address and the protocol of the record with that name, and the end callback was called with OK. After a session in which the application goes through all pages and loads each engine from its slot into its own object, the objects hold the database of the master: for names of up to 16 characters, all different.", "quantifier": "all masters (databases of up to 255 engines with different names of up to 16 characters), all program states, all answers in the file format", "why_tests_cant": "databases, states and file contents are unbounded; each exchange must leave the results of the earlier ones alone", "anchors": ["lib/RR32Can/Station.cpp:RequestEngine", "lib/RR32CanEngineDb/LocoConsumer.cpp:consumeConfigData", "lib/RR32CanEngineDb/LocoConsumer.h:setEngine", "lib/RR32Can/Locomotive.h:setName"]}
{"id": "C83", "title": "Logging does not change what the program does", "statement": "Whichever of the logging switches are compiled in, a history of calls ends in the same state, with the same calls on callbacks and consumers in the same order, as with the logging switched off; printing never reads outside of an object. (Holds for the switches of the template and for all configurations without stream data logging; with stream data logging it holds if the entries given to the consumers of the library end with a NUL and received frames are not longer than their objects, and exactly then.)", "quantifier": "all logging configurations, all program states, all histories of calls", "why_tests_cant": "configurations, states and histories are unbounded, and a test runs in one configuration, which here is not the one that is shipped", "anchors": ["lib/RR32Can/_RR32Can_config.h", "test/RR32Can_config.h", "lib/RR32Can/Station.cpp:HandlePacket", "lib/RR32CanEngineDb/LocoConsumer.cpp:consumeConfigData", "lib/RR32CanEngineDb/LocoListConsumer.cpp:consumeConfigData", "lib/RR32CanEngineDb/util/ConfigDataStreamParser.cpp:addMessage"]}
{"id": "C84", "title": "The frames of a command stay in order, whatever callbacks call meanwhile", "statement": "If callbacks call any functions of the library between the frames of a command or request, every frame the call puts on the bus by itself is still put there, completely and in order: all frames of a command, the two frames of a request for the engine list and the three of a request for an engine, with one sender hash and the name that was asked for. For an engine object of the application the name is read again between the frames, so there no callback may rename that engine meanwhile.", "quantifier": "all programs of callbacks, all depths of nesting, all states, all commands and requests that return", "why_tests_cant": "what callbacks call, and how deeply nested, is unbounded", "anchors": ["lib/RR32Can/Station.cpp:RequestEngine", "lib/RR32Can/Station.cpp:RequestEngineList", "lib/RR32Can/Station.cpp:RequestEngineAllFunctions", "lib/RR32Can/Station.cpp:SendPacket"]}
{"id": "C85", "title": "Callbacks are told what has just happened, and their calls are a history of their own", "statement": "A callback runs only in states in which what it is told is the last thing that happened, frames only go to the transmit callback the station has, consumers of the application are told what parsers pass to them, and the end of a stream goes to the callback its consumer has; what callbacks would do in other states makes no difference. What a callback calls is executed like a history of calls of the main program from the state in which the callback is told; only after it does the interrupted function go on.", "quantifier": "all programs of callbacks, all depths of nesting, all states, all histories", "why_tests_cant": "programs of callbacks are functions of everything that has happened", "anchors": ["lib/RR32Can/Station.cpp:HandlePacket", "lib/RR32Can/Station.cpp:SendPacket", "lib/RR32CanEngineDb/util/ConfigDataStreamParser.h:reset", "lib/RR32CanEngineDb/LocoListConsumer.h:setStreamAborted"]}
{"id": "C86", "title": "The console during downloads", "statement": "With the template configuration only received data is written about; every other call prints nothing. A download for an engine consumer prints one line after its last frame, which is 'Downloaded Engine: ' with what the engine, as it is then, prints about itself. A download of the list of engines prints a line for every name in the order of the file, which says that it is stored, or that there is no place for it, and a line for every entry of an unknown section. A download for a consumer of the application prints nothing.", "quantifier": "all program states reachable through the station, all documents of any length, all calls", "why_tests_cant": "documents and histories are unbounded; the repository's tests look at no console output", "anchors": ["lib/RR32CanEngineDb/LocoConsumer.cpp:setStreamComplete", "lib/RR32CanEngineDb/LocoListConsumer.cpp:consumeConfigData", "lib/RR32CanEngineDb/util/ConfigDataStreamParser.cpp:addMessage", "lib/RR32Can/Station.cpp:HandlePacket"]}
{"id": "C87", "title": "Going through the engines of a master on a busy bus, asking again when answers are lost", "statement": "An application asks for a page of the list, or for an engine the list shows, and asks again if the answer does not come; meanwhile engines, accessories and the system are controlled, frames of all kinds are received, also parts of answers, damaged answers and answers to others. When at last the frames of the answer come, with control traffic between them, the table shows the names of the master, or the engine object holds what the master knows. Until then pages leave the engine objects as they are, and engines leave the table and all other engine objects as they are. So a whole session on a busy bus shows every name once and in order, and leaves the database of the master in the engine objects.", "quantifier": "all databases with distinct names, all numbers of attempts, all frames received after unanswered requests, all control traffic, all states of the library in which the objects are set up", "why_tests_cant": "traffic, attempts and databases are unbounded", "anchors": ["lib/RR32Can/Station.cpp:RequestEngineList", "lib/RR32Can/Station.cpp:RequestEngine", "lib/RR32Can/Station.cpp:HandlePacket", "lib/RR32Can/Station.cpp:FinishCurrentConfigRequest", "lib/RR32CanEngineDb/util/ConfigDataStreamParser.cpp:addMessage"]}
{"id": "C88", "title": "Both sides of a download can be built from the library", "statement": "A program that uses the frame builders can play the part of the master: a text cut into pieces of eight characters and sent with the two overloads of Config_Data_Stream, with the length and the checksum the class Crc computes, is a stream as the parser of this library expects it; every such stream can be sent in this way, and so every request a station sends for something in a database can be answered. The frames a station sends when it asks for the list or for an engine are those of the builder Request_Config_Data for 'loknamen' and the position, or for 'lokinfo' and the two halves of the name with length 8, with the hash of the station.", "quantifier": "all texts up to the length the announcement can express, all documents, all databases of at most 255 engines, all stations, all positions and names", "why_tests_cant": "texts, databases and names are unbounded; the tests use one list and three engines", "anchors": ["lib/RR32Can/util/constexpr.h:Config_Data_Stream", "lib/RR32Can/util/constexpr.h:Request_Config_Data", "lib/RR32Can/Station.cpp:RequestEngineList", "lib/RR32Can/Station.cpp:RequestEngine"]}
{"id": "C89", "title": "When objects may be destroyed", "statement": "The library keeps pointers to callbacks, parsers, consumers and engines and is not told when they are destroyed. A call uses only objects that are reached by pointers from the station and from what the application mentions; so a program that mentions only existing objects, and destroys an object only when nothing that exists points to it, never uses a destroyed one and behaves as if nothing had been destroyed. A call that ends a request takes away the pointers to its parser and from this to its consumer. A parser destroyed before that is used by the next packet of any stream, the next request for a known engine, and whatever ends the request, and by nothing else; a consumer destroyed while its stream is awaited or received is told of the abort. A consumer can be destroyed when its stream is over, though the parser still points to it, as long as the parser is not put to work again by itself. An engine must not be destroyed while it is loaded, unless the download is given up.", "quantifier": "all states, all calls and all programs of calls and destructions, any set of destroyed objects", "why_tests_cant": "the use of a destroyed object need not be visible in a test; the programs and the points of destruction are unbounded", "anchors": ["lib/RR32Can/Station.cpp:FinishCurrentConfigRequest", "lib/RR32Can/Station.cpp:RequestEngine", "lib/RR32Can/Station.cpp:HandleConfigDataStream", "lib/RR32CanEngineDb/util/ConfigDataStreamParser.h:reset", "lib/RR32CanEngineDb/LocoConsumer.cpp:setStreamComplete"]}
{"id": "C90", "title": "What the logging switches add", "statement": "More logging switches only add text: what is printed with fewer switches is a subsequence of what is printed with more, and the states are the same. A call that receives nothing prints at most one line, and only if outgoing messages are logged. The switch for received frames puts a line with the identifier in front of what is printed about a frame. About a stream that is received from start to end with a consumer of the application, exactly the following is printed: with each frame what the switches for received frames and for everything ask for, with the first frame the announced length and checksum, with each data frame its data, the number of bytes that are missing and the checksum of the data so far, and with the last frame that the stream is complete or, with both checksums, wrong. The consumers of the library print each entry they are given and what they set with it.", "quantifier": "all configurations, all states, all histories, all streams of any length below 2^31 bytes", "why_tests_cant": "the switches are set at compile time and a test is built with one configuration; streams are unbounded", "anchors": ["lib/RR32CanEngineDb/util/ConfigDataStreamParser.cpp:addMessage", "lib/RR32CanEngineDb/LocoConsumer.cpp:consumeConfigData", "lib/RR32CanEngineDb/LocoListConsumer.cpp:consumeConfigData", "lib/RR32Can/Station.cpp:HandlePacket", "lib/RR32Can/Station.cpp:HandleConfigDataStream"]}
{"id": "C91", "title": "Several stations and one master", "statement": "Any number of stations with this library and one master with a database of engines are on one bus. Stations ask for pages of the list and for engines; everything that is sent reaches every station. Each station gets the answers to its own requests: the table of a station shows the page that this station asked for, an engine object gets the data of the engine with the name it was requested for, and a station that loads every engine holds the database in the end.", "quantifier": "all numbers of stations, all databases of up to 255 engines with distinct names, all interleavings of calls, receptions and frames of other devices", "why_tests_cant": "interleavings of several stations on a bus are unbounded, and the failure needs two requests that overlap in time", "anchors": ["lib/RR32Can/Station.cpp:HandleConfigDataStream", "lib/RR32Can/Station.cpp:RequestEngine", "lib/RR32Can/Station.cpp:RequestEngineList", "lib/RR32CanEngineDb/util/ConfigDataStreamParser.cpp:addMessage"]}
{"id": "C92", "title": "Consumers that modify the buffers they are given", "statement": "The text parser passes its section, key and value buffers to the consumer by reference, and the consumer may modify them. Whatever a consumer does with them by calls of the buffer functions, for chunks of any size, the parser stays within its buffers and everything it reports fits them. Changes to the key buffer, and to the value buffer of a line with a value, have no effect on later entries. A changed section is the one under which later entries are reported, until the next section line. What is left in the value buffer at a key without a value is put before the next value; if the value then does not fit, the consumer is told the entries up to there and after that only ERROR. With a consumer that modifies nothing the parser does what it is shown to do elsewhere.", "quantifier": "all consumers whose calls depend in any way on what they were told, all documents, all ways to cut them into chunks", "why_tests_cant": "the consumers and the documents are unbounded; the consumers of the library modify nothing, so no test of the library shows what is left over", "anchors": ["lib/RR32CanEngineDb/util/TextParser.cpp:processBuffer", "lib/RR32CanEngineDb/util/TextParser.cpp:reportParseError", "lib/RR32CanEngineDb/util/TextParser.h:consumeConfigData", "lib/RR32CanEngineDb/util/TextParser.cpp:findToken"]}
{"id": "C93", "title": "Buffers that share memory", "statement": "A BufferManager only points into memory, so sub-buffers, copies of a manager and separate managers may share bytes. However they share them, a program that respects the preconditions never leaves an array and never passes overlapping ranges to memcpy or strncpy; appending and moving are undefined exactly if a byte that is read is also written, which cannot be if the windows are apart, for a buffer and itself, or for a view inside the content of the buffer it is appended to. Buffers whose windows are apart, even in one array, act as separate lists, and a step changes no byte outside the window of the buffer it writes. A view always shows what is now at its place in its parent; a byte written through a view is written in the parent, a character appended to a view replaces the byte of the parent behind it, and erasing a view clears the parent to the end of its memory. Setting a buffer to its own bytes is undefined.", "quantifier": "all programs over any number of buffers and arrays, with any pointers, lengths and capacities up to 255", "why_tests_cant": "the ways in which windows can overlap are unbounded, and overlapping copies usually give the expected bytes on the machine that runs the tests", "anchors": ["lib/RR32CanEngineDb/util/BufferManager.h:BufferManager", "lib/RR32CanEngineDb/util/BufferManager.cpp:subBufferManager", "lib/RR32CanEngineDb/util/BufferManager.cpp:push_back", "lib/RR32CanEngineDb/util/BufferManager.cpp:move_back", "lib/RR32CanEngineDb/util/BufferManager.cpp:set", "lib/RR32CanEngineDb/util/BufferManager.cpp:pop_front"]}
{"id": "C94", "title": "Callbacks that destroy objects", "statement": "The callbacks of an application may call functions of the library and may destroy objects before they return, also the objects whose functions have called them. If every callback, and the main program, mentions only objects that exist, and destroys an object only when nothing that exists points to it and no function that is running still uses it, then no destroyed object is ever used, at any depth of nesting, and the program does what it would do if nothing were destroyed. A function still uses: a stream parser, while it hands out values and while it is reset; the parser and the callbacks given to a request or to begin, while the former request is ended; an engine that is requested, until its name has been sent. It uses nothing after the call that says that a stream is over: in that call the parser can be destroyed, once the request is ended.", "quantifier": "all programs of callbacks, all histories of calls and destructions, all depths of nesting", "why_tests_cant": "which object a callback destroys at which moment, below which calls, is unbounded, and the use of a destroyed object is often without effect in a test", "anchors": ["lib/RR32CanEngineDb/util/ConfigDataStreamParser.h:reset", "lib/RR32CanEngineDb/util/ConfigDataStreamParser.cpp:addMessage", "lib/RR32CanEngineDb/util/TextParser.cpp:addText", "lib/RR32Can/Station.cpp:RequestEngine", "lib/RR32Can/Station.cpp:FinishCurrentConfigRequest"]}
{"id": "C95", "title": "Frames overwritten while they are handled", "statement": "A received frame belongs to the application, which typically has one variable for all frames, and a callback that is called while a frame is handled may overwrite it, for example with the next frame. Whatever callbacks write into the frame or the packet that the main program has handed over, and whatever else they call, the library does what it would do with a copy of the frame. A packet handed over from inside a callback is also treated like a copy if the text parser has room for it, that is if less than 24 bytes wait in its input buffer. While the main program runs, no bytes wait in any parser.", "quantifier": "all contents the variable may take at any time, all programs of callbacks, all histories, all depths of nesting", "why_tests_cant": "a test would have to overwrite the frame at every possible moment with every possible content, below all programs of callbacks", "anchors": ["lib/RR32Can/Station.cpp:HandlePacket", "lib/RR32CanEngineDb/util/ConfigDataStreamParser.cpp:addMessage", "lib/RR32CanEngineDb/util/TextParser.cpp:addText"]}
{"id": "C96", "title": "The log says what was received", "statement": "What the station prints about a received frame with at most 8 bytes is given to the letter: system frames are named with their subcommand (STOP, GO, Halt, OVERLOAD, Status, Identifier, Reset or unknown; the emergency stop of an engine is not mentioned), accessory frames with their details, unwanted stream data and debug text with their bytes, frames with other commands with the command and a hex dump, and engine frames, pings and configuration requests not at all. Frames of different kinds are never printed alike, unknown frames with different commands or payloads neither, and system frames with different subcommands only if the log calls both unknown.", "quantifier": "all stations, all identifiers, all payloads with dlc up to 8", "why_tests_cant": "2^29 identifiers times 256^8 payloads; that different frames are printed differently concerns pairs", "anchors": ["lib/RR32Can/Station.cpp:HandlePacket", "lib/RR32Can/Station.cpp:HandleSystemCommand", "lib/RR32Can/Station.cpp:HandleConfigDataStream", "lib/RR32Can/Constants.h:SystemSubcommand"]}
{"id": "C97", "title": "The console while callbacks call back", "statement": "Printing never changes what the library does, whatever callbacks call: a run that returns with the printing returns with the same state without it, and, unless the contents of streams are logged, exactly when it returns without it, with the same use of the stack. The console only grows. As long as no emergency stop and no unwanted stream data without a line end is received, by the main program or inside of a callback, it shows whole lines whenever a call of the main program returns. What is printed during an accessory callback stands inside of the line about the accessory frame, whose end is printed after the callback, and is what a main program prints that makes the calls of the callback; sending a frame prints nothing else. If no callback calls back, it shows exactly what the library prints without nested calls.", "quantifier": "all programs in callbacks, all depths of nesting, all histories, all log configurations (whole lines: the template configuration)", "why_tests_cant": "the order of the text depends on which callback calls which function at which depth, and nested callbacks make unboundedly many runs", "anchors": ["lib/RR32Can/Station.cpp:HandlePacket", "lib/RR32Can/Station.cpp:HandleAccessoryPacket", "lib/RR32CanEngineDb/util/ConfigDataStreamParser.cpp:addMessage", "lib/RR32CanEngineDb/LocoConsumer.cpp:setStreamComplete"]}
{"id": "C98", "title": "The log says why received configuration data is not used", "statement": "For a packet of configuration data that a parser does not use, exactly one line is printed in the template configuration, and it names the reason: the parser is idle, the stream is done, the first packet is too short (less than 6 bytes) or too long (more than 7), or a packet of data does not have 8 bytes. Different reasons give different lines. A packet with a reason changes nothing, or ends the stream with its consumer told so; a packet without one begins or continues the stream. For a received frame while no parser takes part in a stream, the payload is printed and nothing changes.", "quantifier": "all parser states, all packets, all consumers, all received stream frames with at most 8 bytes", "why_tests_cant": "the text depends on the state of the parser and on the length of the packet, and no test looks at what is printed", "anchors": ["lib/RR32CanEngineDb/util/ConfigDataStreamParser.cpp:addMessage", "lib/RR32Can/Station.cpp:HandleConfigDataStream"]}
{"id": "C99", "title": "When an engine counts as valid", "statement": "isValid of an engine consumer says that its engine is completely known; it has undefined behaviour exactly if no engine was ever set. In every history in which the application does not overwrite the engine, the engine is completely known at the end exactly if at some call a consumer that wrote to it was told that its stream is complete, or it was known at the beginning, and it has not been given a name since. A single call changes nothing else of what is known of an engine or of its name. The same holds while callbacks call back, if they neither name nor overwrite that engine and do not change where consumers write.", "quantifier": "all worlds, all histories, all engines and consumers, all programs in such callbacks, all depths of nesting", "why_tests_cant": "the answer depends on the whole history of streams, selections and names of several parsers and consumers; no test calls isValid of a consumer", "anchors": ["lib/RR32CanEngineDb/LocoConsumer.h:isValid", "lib/RR32CanEngineDb/LocoConsumer.cpp:setStreamComplete", "lib/RR32Can/Locomotive.h:setName"]}
{"id": "C100", "title": "What an engine list remembers", "statement": "What the getters of an engine list say depends only on what happened to that list, in order: isStreamComplete says true exactly if the last of complete, aborted and reset was complete; getStreamOffset says the offset set last, or zero if the list was aborted or reset since; the number of engines is zero and the table is empty after an abort or a reset, and the table after clearing, until an entry is told; and nothing else changes them. Asking for completeness or the offset before any of these happened is undefined behaviour, and after a reset or an abort nothing is. In particular the list still says that it is complete while its next page is downloaded. The same holds while callbacks call back, if they do not set the offset of that list, clear it or reset it.", "quantifier": "all worlds, all histories, all lists, all programs in such callbacks, all depths of nesting", "why_tests_cant": "the answers depend on the whole history of several parsers and consumers, and reading a member that was never set gives some value in a test", "anchors": ["lib/RR32CanEngineDb/LocoListConsumer.h:isStreamComplete", "lib/RR32CanEngineDb/LocoListConsumer.h:getStreamOffset", "lib/RR32CanEngineDb/LocoListConsumer.h:getNumEnginesKnownByMaster", "lib/RR32CanEngineDb/LocoListConsumer.cpp:reset"]}
{"id": "C101", "title": "The table of an engine list holds the first names told since it was emptied", "statement": "In every history of calls that returns, also with callbacks that call back: the two slots of an engine list's table show, in order and then empty, the first two names that entries told the list since its table was last emptied (by clearTable, a reset or an aborted stream), after the names it already had if it was not emptied; a name is the value of an entry whose section passes for 'loknamen', cut to 32 bytes. The number of engines is the one told last by an entry that passes for 'wert' in 'numloks' since the last reset or aborted stream, which set it to zero; a decimal numeral is taken modulo 256 as far as a long can hold it. Nothing else changes them: no other entry, no end of a stream, no call on other objects.", "quantifier": "all worlds, all histories of all API calls, all programs of callbacks that do not edit this list, all entries", "why_tests_cant": "The contents depend on the whole past of the list, across several downloads, aborted streams and edits in any order; tests look at one download from a fresh list.", "anchors": ["lib/RR32CanEngineDb/LocoListConsumer.cpp:15-53", "lib/RR32CanEngineDb/LocoListConsumer.h:22-43,74-81"]}
{"id": "C102", "title": "The data of an engine are what was said of them last", "statement": "In every history of calls that returns, also with callbacks that call back: uid, address and protocol of an engine are each what the last entry for it said that a consumer was told while it wrote to this engine, or zero or empty if the application gave the engine a name since, or what the application assigned; its name is the one given or assigned last, cut to 32 bytes; it is completely known, or known by name, as the last end of a stream, naming or assignment said; and velocity, direction and functions are those of the last naming or assignment. So after an aborted download the data of the earlier and the aborted download are mixed, and nothing else than these events changes an engine: no frames, no streams of consumers that write to other engines, no end of an aborted stream.", "quantifier": "all worlds, all engines, all histories of all API calls, all programs of callbacks that do not edit this engine or choose engines", "why_tests_cant": "The data depend on the whole past of the engine, over several downloads, consumers, aborted streams and edits in any order; tests look at one download.", "anchors": ["lib/RR32CanEngineDb/LocoConsumer.cpp:24-78", "lib/RR32Can/Locomotive.h:31-35,86-95,114,162-173"]}
{"id": "C103", "title": "What is transmitted if callbacks call the station back", "statement": "In every history of calls with callbacks that call anything but begin, however deep they nest: every frame transmitted during the next call, by it or by a callback, is well-formed (priority 0, no response, at most 8 bytes, 29 bits; SendPacket: data and upper identifier bits as handed over), carries the hash of the UUID of the program's latest begin, and goes to the transmit callback given there. If callbacks call begin too, every frame ever transmitted still is well-formed, carries the hash of a begin that was called and goes to the transmit callback of a begin that was called, but these may be two different ones: a transmit callback that calls begin between the packets of a request makes the rest of the packets go to the new callback with the old hash.", "quantifier": "all programs of callbacks, all depths of nesting, all histories of all API calls, all frames transmitted", "why_tests_cant": "Whether a callback changes the station between making a frame and handing it over depends on the callbacks and on how they nest; tests use mocks that only record.", "anchors": ["lib/RR32Can/Station.cpp:21-34,110-183", "lib/RR32Can/util/utils.h:12-17"]}
{"id": "C104", "title": "Callbacks that only send change nothing but what is sent", "statement": "If callbacks only send commands and packets, or hand over frames that are no configuration data (command 0x21), at any depth of nesting and depending in any way on what they see, then every history that returns ends with the same station, parsers, consumers and engines as the same history with callbacks that call nothing. The calls on consumers and on end-of-stream callbacks are the same and in the same order; calls on the application's other callbacks are only put in between. If moreover every callback returns, wherever it is called, a history returns exactly if it does with callbacks that call nothing; in particular consumers and end-of-stream callbacks may send at any time while there is a transmit callback, if the transmit callback and the station's other callbacks call nothing.", "quantifier": "all programs of such callbacks, all depths of nesting, all states, all histories of all API calls", "why_tests_cant": "It compares two runs for every program of callbacks and every point at which a callback can be entered; tests can only try a few callbacks at a few points.", "anchors": ["lib/RR32Can/Station.cpp:36-334", "lib/RR32CanEngineDb/util/ConfigDataStreamParser.cpp:13-112", "lib/RR32CanEngineDb/util/ConfigDataStreamParser.h:24-43"]}
{"id": "C105", "title": "No more ends than streams, for a whole station", "statement": "A station with any number of parsers and consumers, no stream open, is used in any way: requests, received frames, direct calls on parsers, callbacks that only send. Then the consumers are told of no more ends of streams (complete or aborted) than streams were started by startStream() or by a request that names a parser, and the streams still open count too; an end-of-stream callback is called at most once for each end told. If a callback may reset the parser while it is told of an abort, one stream can have any number of ends.", "quantifier": "all stations, parsers, consumers and engines, all histories of all API calls, all programs of callbacks that only send and all depths of nesting; all numbers m for the counterexample", "why_tests_cant": "It is a bound over whole histories with several parsers that are registered, replaced, started twice or fed directly; a test checks the count after a few fixed calls.", "anchors": ["lib/RR32CanEngineDb/util/ConfigDataStreamParser.h:19-43", "lib/RR32CanEngineDb/util/ConfigDataStreamParser.cpp:13-112", "lib/RR32Can/Station.cpp:29-53,110-183"]}
{"id": "C106", "title": "Receive buffers that overrun", "statement": "Any number of stations and other devices are on one bus; each has a receive buffer of any size that drops a frame arriving while it is full. After any history without undefined behaviour, the bus has carried exactly the frames each station transmitted and the other devices sent, and each node's program has made exactly the calls of its application and has handled a subsequence of the other nodes' frames, in the order of the bus and none twice; frames handled, still buffered and lost add up to the frames the others sent. If applications only give commands nobody fails, and an application is told of a subsequence of what the others' commands say, of all of it if nothing was lost and its buffer is empty. A node loses nothing if, whenever somebody sends, there is room for the most frames that call can send.", "quantifier": "all numbers of nodes, all buffer sizes, all initial states of the stations, all interleavings of calls, receive loops and foreign frames (for the part on being told: all histories of commands)", "why_tests_cant": "Which frames are lost depends on the interleaving of several applications and receive loops; a test fixes one interleaving and one buffer size.", "anchors": ["lib/RR32Can/Station.cpp:286-394", "lib/RR32Can/Station.cpp:70-284"]}
{"id": "C107", "title": "Downloads over a busy bus with limited receive buffers", "statement": "On a bus of any number of stations and other devices, each with a receive buffer of any size that drops what does not fit, a station asks for an engine or the engine list and then gives commands only. The others do anything, but the stream frames they send are one answer. Then the consumer is told 'complete' exactly if the receive loop has handled every frame of the answer: never if one was lost. If nothing was lost and the buffer is empty, the engine has the uid, address and protocol of the file (the list consumer the first two names and the number of engines), each entry was given to the consumer once and in order, and the end-of-stream callback was called once, last. Room for one frame is enough if the loop takes each frame before the next is sent.", "quantifier": "all numbers of nodes, buffer sizes, initial states of the other nodes, engine files and lists that fit the parser, all interleavings of the other traffic, the calls of the application and the receive loops", "why_tests_cant": "The outcome depends on which frames are lost among arbitrary other traffic; tests feed the frames of one file to one parser without loss.", "anchors": ["lib/RR32Can/Station.cpp:110-183,286-351", "lib/RR32CanEngineDb/util/ConfigDataStreamParser.cpp:13-112", "lib/RR32CanEngineDb/LocoConsumer.cpp:12-80", "lib/RR32CanEngineDb/LocoListConsumer.cpp:9-62"]}
{"id": "C108", "title": "Programs with callbacks that call back, on one bus", "statement": "On a bus of any number of programs whose callbacks call any public functions of the library, with receive buffers of any sizes: after every history that returns, each node has made the calls of its application and handled frames of the others, each at most once and in the order of the bus, and handled, waiting and lost frames add up to what was sent. The bus carries exactly what the stations gave to their transmit callbacks, from whatever callback, in this order. If the callbacks of a node only send commands, its consumers and its engines are as if they had sent nothing, and a download is told 'complete' exactly if every frame of the answer was handled; if nothing was lost, the engine (or the engine list) has what the file says. Two programs whose engine callbacks repeat each velocity never come to rest: each receive puts another frame on the bus, without end.", "quantifier": "all numbers of nodes, programs of callbacks, depths of nesting, buffer sizes, initial states and interleavings of calls, receive loops and other devices; for the storm all engines, velocities and numbers of receives", "why_tests_cant": "Callbacks of one node act on another one through the bus; tests have one station, callbacks that record only, and no bus. That a storm never ends cannot be observed in a finite run.", "anchors": ["lib/RR32Can/Station.cpp:110-183,209-213,286-394", "lib/RR32Can/callback/TxCbk.h:13-20", "lib/RR32CanEngineDb/util/ConfigDataStreamParser.cpp:13-112", "lib/RR32CanEngineDb/LocoConsumer.cpp:12-80"]}
{"id": "C109", "title": "Receive buffers that lose nothing make an ideal bus", "statement": "For every history of a bus with receive buffers in which no receiving node loses a frame there is a history of an ideal bus (every node gets every frame of the others, in order, with any delay) with the same calls of the applications and the same frames of other devices in the same order, after which all programs and the bus are the same, and what waits in a buffer is what the receive loop has still to take. Conversely every history of an ideal bus is one of a bus with buffers whose receiving nodes have room for all frames, and these lose nothing.", "quantifier": "all numbers of nodes, initial states, buffer sizes and histories of calls, receives and frames of other devices", "why_tests_cant": "It relates all histories of two models of an installation; tests have one station and no bus.", "anchors": ["lib/RR32Can/Station.cpp:286-351", "lib/RR32Can/callback/TxCbk.h:13-20"]}
{"id": "C110", "title": "Chain reactions on a bus that end", "statement": "On a bus of programs whose callbacks call back, let there be a rank of frames such that whenever a node handles a frame its callbacks send at most B frames, all of lower rank. Then a chain reaction is bounded and ends: however the receive loops run after the applications have stopped calling, the bus carries at most B times a number of further frames that can be computed from the buffers at that time, and after that number of rounds in which every node receives, all buffers are empty. A node whose buffer has room for what waits in it and for that many frames loses nothing of it; if it has lost nothing before, it has in the end handled every frame that the others ever sent, each once and in the order of the bus. Callbacks that answer velocities with function commands are of this kind while nothing is requested; callbacks that repeat velocities are not, and never end (C108).", "quantifier": "all numbers of nodes, programs with the rank condition, buffer sizes, states and schedules of the receive loops", "why_tests_cant": "Termination of all schedules of all such programs; tests have one station and callbacks that record only.", "anchors": ["lib/RR32Can/Station.cpp:185-284,286-394", "lib/RR32Can/callback/EngineCbk.h:11-36"]}
{"id": "C111", "title": "Storage that is used again", "statement": "The application also creates objects while the program runs, where none exists, perhaps where a destroyed one was. A new object points to nothing, and creating it tells and changes no other object. If the program mentions only objects that exist, and destroys an object only when nothing that exists points to it, then no object is used that does not exist, all calls do what they would do if nothing had been destroyed, and a new object is told nothing, does not change and is pointed to by nothing until the application mentions it. Without this care nothing is noticed: if a consumer is destroyed while its stream is being waited for or received and another one is made in its place, then the new one is told that its stream is aborted when the parser is reset.", "quantifier": "all histories of calls, destructions and creations, all states in which nothing that exists points to something that does not, all kinds of objects", "why_tests_cant": "Whether a pointer left behind meets an object in reused storage depends on the allocator; tests create all objects once and destroy them at the end.", "anchors": ["lib/RR32Can/Locomotive.h:22-24,160", "lib/RR32CanEngineDb/util/ConfigDataStreamParser.h:19-49", "lib/RR32CanEngineDb/util/TextParser.cpp:7-22", "lib/RR32CanEngineDb/LocoConsumer.h:45", "lib/RR32CanEngineDb/LocoListConsumer.h:19-24", "lib/RR32CanEngineDb/util/ConfigDataConsumer.h:13-22"]}
{"id": "C112", "title": "Nothing goes wrong on a bus", "statement": "Programs on one bus attach only consumers that have been set up, and their engines have the arrays they are declared with. Then no node ever writes behind an array, reads a field that has not been set, shifts too far or loops for ever: whatever the applications and their callbacks call, whatever other devices send, with receive buffers of any sizes, and in whatever order the receive loops run. If moreover the consumers are the applications' own, the stations have the callbacks that they do not check for null, names are terminated, and no frame composed by an application or sent by another device is longer than 9 bytes, then every history of the bus returns, or a node runs out of stack because its callbacks call back without end; with callbacks that call nothing every history returns.", "quantifier": "all numbers of nodes, programs of callbacks, depths of nesting, buffer sizes and histories of calls, receives and frames of other devices", "why_tests_cant": "It is about all histories of an installation with arbitrary other devices; tests have one station and well-formed frames.", "anchors": ["lib/RR32Can/Station.cpp:110-183,185-394", "lib/RR32CanEngineDb/util/ConfigDataStreamParser.cpp:13-112", "lib/RR32CanEngineDb/util/TextParser.cpp:35-172", "lib/RR32Can/callback/TxCbk.h:13-20"]}
{"id": "C113", "title": "New objects where callbacks have destroyed others", "statement": "Callbacks may call public functions and destroy objects, among them those whose functions are just running, and the main program also creates objects, perhaps in the place of one that a callback has destroyed. If the callbacks and the main program mention only objects that exist, destroy an object only when nothing that exists points to it and no running function still uses it, and the main program creates objects only where none exists, then no object is used that does not exist and nothing that exists ever points to something that does not. Such a program returns, goes wrong or runs out of stack exactly where the program would in which nothing is destroyed and new contents are assigned to the old objects, and ends in the same state. Whatever the callbacks and the main program do, in a run that returns a creation tells and changes no other object and the new object points to nothing; and from its destruction on, until something is made in its place, an object is told nothing, does not change, and the main program neither destroys it again nor calls its functions.", "quantifier": "all programs of callbacks, depths of nesting, histories of calls, destructions and creations by the main program, and states in which nothing that exists points to something that does not", "why_tests_cant": "Whether a destroyed object is used, or another one in its place, depends on the order of nested calls and on the allocator; tests create all objects once and their callbacks destroy nothing.", "anchors": ["lib/RR32CanEngineDb/util/ConfigDataStreamParser.h:19-49", "lib/RR32CanEngineDb/util/ConfigDataStreamParser.cpp:13-112", "lib/RR32CanEngineDb/util/TextParser.cpp:7-22,60-172", "lib/RR32Can/Station.cpp:21-25,110-183", "lib/RR32CanEngineDb/LocoConsumer.cpp:58-78"]}
{"id": "C114", "title": "Receive buffers that lose nothing, with callbacks that call back", "statement": "Every node has callbacks that may call any public functions of the library before they return, so receiving a frame can put frames on the bus. For every history of such a bus with receive buffers in which no receiving node loses a frame there is a history of an ideal bus with the same callbacks, the same calls of the applications and the same frames of other devices in the same order, after which all programs and the bus are the same, and what waits in a buffer is what the receive loop has still to take. Conversely every history of an ideal bus with such callbacks is one of a bus with buffers whose receiving nodes have room for all frames, and these lose nothing. If no callback calls anything this is C109.", "quantifier": "all numbers of nodes, programs of callbacks, depths of nesting, buffer sizes and histories of calls, receives and frames of other devices", "why_tests_cant": "It relates all histories of two installations with arbitrary callbacks; tests have one station whose callbacks call nothing.", "anchors": ["lib/RR32Can/Station.cpp:185-394", "lib/RR32Can/callback/TxCbk.h:13-20"]}
{"id": "C115", "title": "Frames are counted by calls, with callbacks that call back", "statement": "Callbacks may call any public functions of the library before they return, which may call further callbacks, to any depth. Give each callback a budget: the most frames that the calls it makes itself put on the bus, counted per call as in C63 (1 for a command or single request, 16 for all functions, 2 for the engine list, 3 for an engine, none otherwise). Then whenever a call returns, at most as many frames have been sent since as the call itself accounts for, plus the budgets of the callbacks that were called meanwhile; so also for any history of calls, and for every step of a bus, where receiving a frame accounts for none by itself. If no callback sends, any history of the bus puts no more frames there than C63 allows.", "quantifier": "all programs of callbacks and budgets they keep to, all depths of nesting, all states of the program and of the bus, all calls and histories", "why_tests_cant": "It bounds what arbitrary callbacks, nested to any depth, send in any state; tests have callbacks that call nothing.", "anchors": ["lib/RR32Can/Station.cpp:29-53", "lib/RR32Can/Station.cpp:110-394", "lib/RR32Can/callback/TxCbk.h:13-20"]}
