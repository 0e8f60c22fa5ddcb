# RR32CanLibrary: a Lean 4 model and its theorems

## 1. Layout

* `properties.jsonl`: the properties, in English.
* `lean/Verif/Model/*.lean`: the model of the code, function by function. Every definition cites the file and lines it models.
* `lean/Verif/Spec/*.lean`: small specifications, written without looking at the model's helpers.
* `lean/Verif/Proofs/*.lean`: helper lemmas.
* `lean/Verif/Props/*.lean`: one theorem (or a few) per property, with a non-vacuity `example` next to each.
* `lean/Verif/Tests/*.lean`: the repository's own tests (test/RR32Can, test/integration), run on the model by the kernel.
* `MANIFEST.json`: property -> theorem names and status.
* `seeded/LOG.jsonl`: log of deliberately wrong models and which theorems caught them.

## 2. Modelling decisions

* Fixed-width integers are `BitVec n` when the code does bit arithmetic on them (identifiers, loc-ids, addresses, CRC, function
  bits). The `uint8_t` sizes of `BufferManager` are `Nat` with an explicit reduction modulo 256 at every point where C++ converts
  to `size_type`.
* Undefined behaviour is a distinct outcome. Functions that can meet it return `Res a = Except Fault a`; the faults are null
  dereference, read of an uninitialised field, read or write out of bounds, over-wide shift, non-termination.
* C string functions (`strlen`, `strncpy`, `strncmp`, `strtoul`, `strtol`, `memcpy`, `memmove`, `memset`) work on byte lists that stand
  for the memory region of the object; running off its end is a fault.
* A function that mutates through `this` or a reference returns the new value. A loop is structural recursion, or takes fuel and
  reports `nonTermination` when it runs out. Absence of that fault is proved.
* Virtual callbacks: `Station` functions return the list of callback calls they make, in order. Installed callbacks are object
  numbers, null is `none`. The only thing `Station` reads back from a callback, `ConfigDataCbk::isProcessing()`, is an argument.
  `World` puts the pieces together: a station, any number of stream parsers, consumers and engines. It executes the calls, and
  every callback into the application is appended to a log.
* `long`/`unsigned long` width is a parameter (`Platform`), because it differs between the ESP32/STM32 (32) and a PC (64).
  `int` has 32 bits: with 16 the constant `0xFF << 17` (Identifier.h:24) does not compile. `char` may be signed or unsigned: characters
  are compared for equality and passed to the C library only.
* Configuration macros: the template `_RR32Can_config.h` (all logging off), unless said otherwise. With the test config the macros
  `LOG_CONFIG_DATA_STREAM_LEVEL*` are undefined, `#if (0 >= 0)` is true, and additional `printf`s are compiled in. `Model/Output` has
  the program with its console output for every configuration (C83), and C83 says when the others differ from the template.

## 3. Trusted base

* Lean's kernel. Definitions and theorems are checked by it; nothing is executed by compiled code (no `native_decide`, no
  `bv_decide`, no `sorry`, no axiom of our own). Concrete cases are computed by the kernel (`decide +kernel`).
* The axioms `propext`, `Quot.sound` and `Classical.choice`. The axioms of each theorem named in `MANIFEST.json` are listed in
  `AXIOMS.md`, which is the output of `#print axioms`.
* The reading of the C++ code into `Verif/Model`. Nothing here runs the C++. As a check of the reading, every test of the repository is
  repeated on the model with the same inputs and expected values in `Verif/Tests` (these are concrete cases, no claims). One test is
  left out: `ReceiveConfigData_WithParser_data2` (test/integration/StationTest.cpp:266-277) reads `testData1` beyond its end.
* The reading of the C standard library contracts in `Verif/Model/CLib.lean`.
* The program in `Verif/Model/World.lean`, `Verif/Model/Reentrant.lean` and `Verif/Model/Nested.lean`. It is the application: it owns a station, parsers,
  consumers and engines, and may call any public function in any order.

### What is modelled

| File in /repo/lib | Model | Modelled |
|---|---|---|
| RR32Can/Constants.h, .cpp | Constants | commands, subcommands, address ranges, lengths and file names that the code uses |
| RR32Can/types/BaseTypes.h, TurnoutTypes.*, LocomotiveTypes.* | Types | all conversions, tags and comparisons |
| RR32Can/util/utils.h | Messages | `computeSenderHash` |
| RR32Can/messages/Identifier.*, Data.*, CanFrame.h | Messages, Console | all |
| RR32Can/messages/BaseMessage.h, SystemMessage.h, TurnoutPacket.*, S88Event.h | Messages, Console | all |
| RR32Can/util/constexpr.h | Util | all address helpers and frame builders |
| RR32Can/Locomotive.* | Locomotive, Console | all |
| RR32Can/Station.* | Station, Console, Output | all functions (`loop` is empty) |
| RR32CanEngineDb/util/BufferManager.* | BufferManager, Shared | all; in BufferManager, which the parsers use, a sub-view is a copy. Shared has managers as pointers into common memory, and overlapping copies as undefined (C93) |
| RR32CanEngineDb/util/Crc.* | Crc | all |
| RR32CanEngineDb/util/TextParser.* | TextParser, Editing | all |
| RR32CanEngineDb/util/ConfigDataStreamParser.*, RR32Can/callback/ConfigDataCbk.h | StreamParser, Console, Output | all |
| RR32CanEngineDb/LocoConsumer.*, LocoListConsumer.*, util/ConfigDataConsumer.h, util/ConfigDataEndStreamCallback.h | Consumers, ListGetters, Console, Output | all |
| RR32Can/callback/*.h | Station (`Call`), World (`LogEntry`) | the calls and their arguments |

### What is not modelled

* What callbacks of the application print themselves. `Model/Console.lean` gives the text of each function on its own,
  `Model/Output.lean` the text of whole histories in order with callbacks that call nothing, `Model/Speaking.lean` the text of whole
  histories with callbacks that call back (C97). `LOG_PING` is left out, because the library
  does not compile with it (Station.cpp:301 uses a variable that does not exist). The `printf` conversions (`%#02x`, `%d`, ...) are
  part of the reading of the C library; `%d` of a `uint32_t` above `INT_MAX` is read as the negative number it shows in practice.
* Thread interleavings (the README states that the library is not thread safe).
* The CAN hardware behind `TxCbk`. Several stations are put on an idealised bus in `Model/Bus.lean` (every node gets every frame of the
  others once, in the order of the bus, with any delay); `Model/Overrun.lean` adds receive buffers of limited size that drop what does not fit; `Model/Exchange.lean` adds callbacks that call back (a call with everything its callbacks do is one step of the bus, so frames of two nodes are not interleaved within such a step); arbitration and errors are not modelled. Lost, repeated and reordered frames are covered as other sequences of received frames (C62).
* The Arduino branches of the `#ifdef`s (they contain only other `#include`s), `RR32Can.cpp` (one global `Station`), and the `classmaker.py` script.
* Consumers that modify the buffers passed to them are in `Model/Editing.lean`, for one text parser (C92); elsewhere callbacks only read
  what they are passed. A consumer does not write behind the length of a buffer through `data()` and does not move-assign a buffer.
* Frames that change while they are handled are in `Model/Overwritten.lean` (C95), for the frames the main program hands over; the models
  with callbacks take the frames that callbacks hand over as fixed.
* Destroyed objects are in `Model/Lifetime.lean`, and in `Model/Departing.lean` with callbacks that call back and destroy objects (C94).
  `Model/Storage.lean` has creation in storage that is used again (C111), with callbacks that call nothing, and
  `Model/Tenancy.lean` with callbacks that call back and destroy objects (C113). There the main program creates objects, and callbacks do
  not. The station itself is never destroyed, and what a callback of the application does with its own destroyed object is left to the application.

### How the pieces fit

* `World.step` runs one public call of the application; `World.run` a history of them. Every call that leaves the library is
  appended to `World.log`, with a snapshot (`Seen`) of what an end-of-stream callback can read.
* `Proofs/Histories` proves invariants over all histories. `Proofs/Compose` and `Proofs/Request` compose the request, the frames
  on the wire (`Spec/Wire`), the stream parser, the text parser and the consumer into the end-to-end theorems.
* `Model/Speaking` repeats `Model/Nested` with a console: each function prints where the code prints, between the calls it makes. `C97_same`
  and `C97_quiet` prove that the state is that of `Model/Nested`, and `C97_flat` that the text is that of `Model/Output` if no callback calls back.
* `Model/Reentrant` repeats `World.step` with end-of-stream callbacks that call back; the result is `none` if the stack is
  exhausted at the given depth. `C59_recording` proves that it agrees with `World.step` if the callbacks do nothing.
* `Model/Nested` repeats `World.step` once more with every callback of the application calling any public functions (a `Program` says
  which, given everything that has happened). Calls on consumers come from inside the text parser, so functions are split where the code
  calls out, members are read again afterwards and local variables are kept. `C74_silent` proves that it agrees with `World.step` if the
  callbacks call nothing, `C74_reentrant` that it agrees with `Model/Reentrant` if only end-of-stream callbacks call, `C74_stack` that a
  larger stack changes nothing, and `C76_received` how the two are related if only calls made
  last call back.
* `Model/Departing` repeats `Model/Nested` with a record of the objects that exist: every place where the code follows a pointer or goes
  on in a parser after a callback looks whether the object is still there. `C94_as_if` relates it to `Model/Nested`. The list of objects
  that running functions still use is passed along for the programs to look at and has no influence on the run.
* `Model/Overwritten` repeats the functions of `Model/Nested` that read a received frame, with the frame read where the code reads it.
* `Spec/Master` is the other side of the bus for C81 and C82: a database, what it reads in the frames of a request, and the answers it
  may give. `Props/Browse` runs an application against it, where nothing is received between a request and its answer. `Props/Busy` (C87)
  adds all other traffic and lost answers: any control calls and any frames at all before a request and after one that is not answered,
  and control calls and frames of other commands between the frames of an answer.
* `Model/Output` repeats `World.step` with what is printed. `C83_same` proves that it ends in the same state, `C83_template` that nothing
  is different with the template configuration. `Spec/Printed` has the lines of a download for C86; `Props/Lines` lifts C68 to whole
  programs.
* `Model/Bus` puts any number of programs on one bus. Its steps are calls of an application, turns of a receive loop, and frames of
  devices that do not use the library. `Model/Overrun` has the same steps and a receive buffer for each node, and `Model/Exchange` the nested calls of `Model/Nested` too (`Model/Broadcast`: these without buffers); `C106_history` gives what a
  node's program did as a history of the one-station model.

### Where the code disagrees with a property

For these properties the manifest says `partial`. In each case a theorem gives a counterexample, and the `_partial` theorem proves
the claim under the guard that the code needs; most guards are proved exact.

| Id | Disagreement |
|---|---|
| C06 | The tag of UNKNOWN (0xFF00) overlaps the numeric address, so it is not removed by a later `setProtocol`. |
| C07 | MFX and DCC addresses are cut to 10 bits; SX2 is tagged into the range of SX1. |
| C10 | `Request_Config_Data` cuts texts of more than 8 characters. |
| C12 | Direction and function frames call through a null engine callback. |
| C13 | Accessory frames are reported without checking the dlc, so bytes behind it are seen. |
| C19 | `SendAccessoryPacket` does not mask the address: 2048 as MM2 is sent as DCC. |
| C38 | A token of full length (11, 11, 26 bytes) is handed out without a NUL. |
| C41 | If the announced length is no multiple of 8 the stream never ends. |
| C43 | A zero-length stream is complete with any checksum. |
| C46 | Requesting with the parser that is still registered drops the consumer attached before the request. |
| C47, C49, C50, C51 | Section and key names are matched by prefix, so proper prefixes (also empty ones) count as the name. |
| C53 | A stream with a parse error and a right checksum is reported complete. |
| C55 | A protocol text of 8 or more characters is stored without a NUL. |
| C59 | `reset` notifies before it changes its state: a callback that ends the request recurses for ever. |
| C65 | A station is not told of its own commands. If two stations command an engine at the same time, each ends up believing the other. |
| C68 | An emergency stop, and unexpected configuration data, leave the log line unfinished. |
| C69 | The "Human Value" of an accessory frame includes the protocol tag: MM2 turnout 1 is logged as 12289. |
| C70 | The tag is removed from the logged address with the mask of MM only: DCC turnout 5 is logged as 2053. Yellow and white are logged as GREEN. |
| C72 | Names with apostrophes make the log of the engine list ambiguous. |
| C78 | `addMessage` goes on after the consumer returns, with the new stream's counter, which is 0, and checksum, which is valid: the new consumer is told at once that its stream is complete, and the parser does not wait for the answer. Requests with another parser and requests made from end-of-stream callbacks work. |
| C79 | A consumer that delivers the next packet while it is given an entry: the rest of the first packet is parsed again with the second, entries come garbled or twice and the stream ends twice. Holds if callbacks leave the parser alone while it waits for data (no requests, no end of the request, no stream packets, no calls on it); everything else may be called. |
| C83 | With stream logging on (as in the repository's own tests, by accident), entries are printed with `%s`, which reads past the end of a section or key of 11 or a value of 26 characters where the program without the text does not. |
| C91 | Answers carry no address, and a station does not compare them with what it asked for: the first stream that arrives after a request is taken as the answer, whoever asked for it and whenever it was sent. Two stations that ask for different engines at the same time: the second gets the data of the first engine under the name of the second, reported as complete. Holds if the stations take turns and receive everything before they ask. |

## 4. Plan per property

| Id | Model part | Proof idea |
|----|------------|------------|
| C01 | `Identifier` as a `BitVec 32` | bit extensionality; field values as `Nat` div/mod |
| C02 | `Data.getLocid/setLocid` | bit extensionality |
| C03 | `Data.eq`, `CanFrame.eq` via `memcmp` | induction over the compared prefix; witness for dlc > 9 |
| C04 | `computeSenderHash`, `Station.begin` | bit extensionality, both directions |
| C05 | address conversions | ring identities of `BitVec` |
| C06 | `setProtocol`, `getRailProtocol` for turnouts | bits and ranges; UNKNOWN leaks bits 8,9: negation witness, partial |
| C07 | same for locomotives | as C06; range truncation: negation witness, partial |
| C08, C09 | packet accessors on `Data` | record laws plus bit extensionality |
| C10 | frame builders | evaluation plus byte/word arithmetic |
| C11-C16 | `Station.HandlePacket` | case analysis on the command against a decision-table spec; negation witnesses for C12, C13 |
| C17 | `World.step` over all operation histories | invariant over the log |
| C18, C19 | send then handle on another station | composition with C11; OR-ing the tag: witness |
| C20-C22 | request functions | evaluation; decimal text by arithmetic, all offsets |
| C23 | request life cycle | per call, and invariant over histories |
| C24-C28 | `BufferManager` over a byte memory | invariant by induction over operations; refinement to lists |
| C29-C32 | `Crc` | polynomial congruence over `ZMod 2`; linearity, injectivity, parity, order of x |
| C33-C39 | `TextParser` with its four buffers | simulation by a byte-at-a-time automaton, then induction over bytes and chunks; round trip with a document grammar |
| C40-C45 | `ConfigDataStreamParser` | induction over data packets, C29-C31, invariant over histories |
| C46 | `World` | composition; witness for the history in which the consumer is lost |
| C47-C53 | `LocoConsumer`, `LocoListConsumer`, `World` | fold over entries, composition of C35 and C40 |
| C54-C57 | `Locomotive` | string lemmas, bit laws, induction over write sequences |
| C58 | consumers with uninitialised fields | invariant over histories |
| C59 | re-entrancy model with fuel | divergence for every fuel on abort-by-reset; termination otherwise |
| C60 | address helpers | bit and `Nat` arithmetic |
| C61 | `World` | the log is never read (simulation over all calls), control calls only append to it; induction over the history |
| C62 | `StreamParser`, `World` | ghost list of the packets heard since the last start, related to state, counter and checksum by an invariant; list induction for sequences of packets |
| C63 | `Bus` | count of tx calls per function, induction over the history |
| C64 | `Bus` | invariant: each node has been told what the frames before its position say; each command as the list of frames it transmits (C16, C18) |
| C65 | `Bus` | invariant: a node that sends only when up to date knows a beginning of the bus; witness for two nodes that send at once |
| C66-C73 | `Console` | readers for hex and decimal numbers and for the word behind a label (`Spec/Console`); digits by strong induction; a label cannot begin in a text without its first character |
| C74-C76 | `Nested` | equivalence with `World` by monadic laws; order on outcomes by stack depth; invariant `Good` over all nested calls (`Run.Sat`), with the buffers described by their content instead of by the reader's state |
| C77-C78 | `Nested` | the packet split at a call on the consumer: what follows the call is a function of the state after it, and comes to nothing if the parser has been reset |
| C79 | `Nested` | invariants closed under every single change that calls make (`Stable`); the packet as a chain of calls on the consumer (`Given`); induction over the history |
| C80 | `World` | each call as an explicit new state |
| C81-C82 | `World`, `Spec/Master` | a master that reads requests and answers in the file format (`Spec/Master`, not part of the library); one exchange from any state, then induction over the session; answers exist, so sessions are possible |
| C83 | `Output` | each call with text against the call without (`Prints`: same state; fails exactly if something unprintable is printed); induction over the calls and the history |
| C84 | `Nested` | the log as it grows (`Sent`); the name of an engine is an invariant if no callback changes it (`Stable`) |
| C85 | `Nested` | congruence: every function depends on the program only through the states in which callbacks are called; unfolding for single callbacks |
| C87 | `World`, `Spec/Master` | frames change only the consumer whose stream is received (`Touched`, `Pends`); an answer with traffic between its frames by C61; induction over the attempts, then over the session |
| C88 | `Util`, `Station`, `Spec/Master` | frames of the builders (C10) put together to a `WireStream`; requests compared with the builders' frames by `operator==` (C03) |
| C89 | `Lifetime`, `Spec/Lifetime` | the program of `World` run with a record of the objects that exist; sets of objects closed under the pointers, and the invariant that nothing (or nothing but idle parsers) points to a destroyed object |
| C90 | `Output`, `Spec/Trace` | the text of each call compared between configurations; induction over the data frames with the checksum of the data so far, against the inductively defined `Trace` |
| C91 | `Bus`, `Spec/Master` | what each station takes from the bus is its part of the wire; a turn is an exchange on a busy bus (C87) for one station and traffic without effect for the others; histories with turns exist for every order of stations |
| C92 | `Editing`, `Spec/Editing` | the parser functions with a modifying consumer refine a byte-wise reader whose fields are edited at each report; its value at documents by induction over the lines |
| C93 | `Shared`, `Spec/Shared` | each function changes only the window of its buffer (frame lemmas over the bytes of the array); invariant: every window lies in its array; for windows that are apart the functions refine lists; a view is determined by pointer and length, so what it shows follows from the parent's window |
| C94 | `Departing`, `Spec/Departing` | invariant: nothing that exists points to something destroyed, and everything that running functions still use exists; at most one consumer call at a time, so nothing is used after it but the objects in that list; the run is followed step by step by the run of `Nested` without destructions |
| C95 | `Overwritten` | invariant of all nested calls: outside the parsers whose text is being parsed, input buffers are empty, so a packet is copied whole before the first callback |
| C96 | `Named` | table of all commands and subcommands by number (`Spec/Named`); the first letter tells the kinds apart, the hex dump is read back |
| C97 | `Speaking` | relation between runs with and without the console, function by function (`Proofs/Speaking`); what every call adds to the console, by induction on the stack (`Proofs/SpeakingGrows`); without nested calls the text is decided by the calls on consumers that the log shows (`Proofs/SpeakingFlat`) |
| C98 | `Reason` | cases of the parser's state and the packet's length; texts of end calls and of the program's own consumers by induction on the calls |
| C99 | `Exactly` | one relation kept by every call (log, selections, what is known), then induction on the history; nested calls by `Steady` (`Proofs/NestedFrame`), which lifts any relation that calls keep to callbacks that call back |
| C100 | `Remembers`, `ListFollows` | what one event leaves, composition by the last event that matters, one relation kept by every call, induction on the history |
| C101 | `Contains`, `tableStep` | as C100, with the contents of the entries in the events; `strncmp` and `strtol` on any memory on which they return |
| C102 | `Describes`, `EngineFollows` | what one event says of each datum, composition by the last event that says something, one relation kept by every call, induction on the history |
| C103 | `World.Faithful`, `hashOf`, `TxFrame` | an invariant of the station and of what was transmitted, kept by every call if the callbacks keep it; induction on the depth of nesting and on the history; counterexample for `begin` in callbacks |
| C104 | `Spec.OnlySends`, `Run.Mirrors`, `World.Over` | a relation between two runs (same state, one log with calls put in), kept by every call if callbacks keep it; induction on the depth of nesting and on the history |
| C105 | `Spec.streamsBegun`, `Spec.saysEnd`, `Spec.callsEnd` | an invariant with the list of open parsers as a witness, kept by every call; lifted to callbacks that send by C104; counterexample by induction on the number of ends |
| C106 | `Spec.sentBy`, `Spec.ofOthers`, `Spec.callsOf`, `Spec.KeepsUp`, `Spec.hearsOf` | an invariant with the history of each program as a witness, kept by every step; what programs are told by induction over that witness; room by C63's bound on the frames of a call |
| C107 | `Spec.BusyDownload`, `Spec.handled`, `Spec.inStream` | the history that C106 gives for a node, cut after the request; then C62 at a station, and C49, C51 with C61's removal of other traffic |
| C108 | `Spec.LivelyDownload`, `Spec.Pair`, `Spec.rally` | the invariant of C106 with nested runs for the nodes; C104 takes the calls of callbacks that only send out of the history of a node, then as C107; for the storm, an invariant of two nodes that serve a frame to each other, by C18 |
| C109 | `Spec.Alike`, `Spec.outside`, `Spec.idealOf` | simulation in both directions between `Model/Overrun` and `Model/Bus`; the receives of an ideal bus that skip a node's own frames are added or left out |
| C110 | `Spec.Falling`, `Spec.weight`, `Spec.burden` | the weight of what waits in the buffers falls with each frame taken: a frame weighs one more than all it can bring about at all nodes |
| C111 | `Storage`, `Spec/Storage` | the program of C89 with constructors; the invariant that nothing that exists points to something that does not, kept for the set of objects without the new one until the application names it |
| C112 | `Spec.Mannered`, `Spec.InOrder` | the invariant of C75 at every node, and the length of everything that waits in a receive buffer; what a node sends is short by the argument of C103 |
| C113 | `Tenancy`, `Spec/Tenancy` | the invariant of C94 is kept by constructors (C111), and constructors do the same in the program that destroys nothing |
| C114 | `Bus.stepWith`, `Spec.Alike` | the simulations of C109 between `Model/Exchange` and `Model/Broadcast`, where a receive can also send |
| C115 | `Spec.InBudget`, `Spec.Budgeted`, `frameLimit` | no parser code sends by itself (`*_tallied`, for any invariant that the parser's own assignments and its consumer keep); a callback pays for its calls out of its own log entry; induction on the depth |
| C86 | `Output` | frames the parser waits for print nothing (`Wanted`); the rest of the text is that of the consumers' calls, entry by entry |
