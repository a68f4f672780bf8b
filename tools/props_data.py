# ------------------------------------------------------------------ wire buffer
P("C01", "Typed buffer round trip",
  "Whatever sequence of values (8/16/32/64-bit integers, float and double bit patterns, byte and word vectors, revisions, CIP strings whose length fits their prefix, socket addresses) is written with operator<< into a Buffer, reading the same types back in the same order with operator>> yields exactly the same values, reads exactly the bytes written, never reads out of bounds and leaves the buffer valid. Writes and reads of one buffer may be mixed: as long as there are unread values, a buffer is a queue of typed values.",
  "every finite sequence of typed values, every interleaving of writes and reads, every initial content already in the buffer, every content following it",
  "tests round-trip a few literals of each type; the law ranges over every value and every mixed sequence",
  ["src/utils/Buffer.cpp:operator<<,operator>>", "src/utils/Buffer.h:operator<<(CipBaseString),operator>>(CipBaseString)"],
  "Model Buffer as byte list + position with an explicit out-of-bounds outcome; one reader/writer per overload; induction over the list of values with a compositional 'reads exactly these bytes' relation.")
P("C02", "Little-endian wire encoding",
  "Writing an n-byte integer appends exactly n bytes, the base-256 digits of its unsigned value, least significant first, and leaves all earlier bytes unchanged.",
  "every width 1,2,4,8, every value, every prior buffer content",
  "a test compares a handful of encodings; the digit law must hold for all 2^64 values",
  ["src/utils/Buffer.cpp:operator<<"],
  "Independent spec `Spec.le n v` by repeated div/mod 256 over Nat; compare with the shifts and truncations of the code.")
P("C03", "Reads are defined exactly when enough bytes remain",
  "A typed read is free of undefined behaviour if and only if the buffer still holds at least as many bytes as the type needs; a defined read advances by exactly that many bytes and keeps isValid() true; consequently isValid() can be false only after an out-of-bounds read has already happened.",
  "every buffer, position and sequence of reads",
  "an out-of-bounds read often looks harmless in a test run; absence must be shown for all lengths",
  ["src/utils/Buffer.cpp:operator>>", "src/utils/Buffer.h:isValid,empty"],
  "Case analysis on the remaining length for each reader, and an induction over read sequences for the isValid part.")
P("C04", "CIP strings survive encoding exactly when their length fits",
  "Encoding a CIP string and decoding it gives back the same text if and only if its length is below 2^8 (short strings) or 2^16 (long strings); at or above that the length prefix is silently reduced modulo 2^8/2^16 while all characters are still written.",
  "every byte string, both prefix widths",
  "the interesting strings are longer than any test uses",
  ["src/cip/CipString.h:CipBaseString", "src/utils/Buffer.h:operator<<(CipBaseString)"],
  "Model the truncating constructor and the stream operators, prove the iff.")
P("C05", "Socket addresses travel in network byte order",
  "Writing an EndPoint appends 16 bytes: family, port and IPv4 address most significant byte first, then eight zero bytes; reading them back gives the same family, port and address.",
  "every family, port and address value, on a little-endian host",
  "tests use one address; byte order mistakes hide when bytes coincide",
  ["src/utils/Buffer.cpp:operator<<(EndPoint),operator>>(EndPoint)", "src/sockets/EndPoint.cpp"],
  "Model htons and the in-memory representation on a little-endian host; spec is big-endian digits.")
# ------------------------------------------------------------------ encapsulation
P("C06", "Encapsulation packets survive the wire",
  "A packet whose payload is set through setData, packed and expanded again, is equal in command, session handle, status, options, sender context and payload if and only if the payload is at most 65535 bytes (with an 8-byte context); the packed bytes are the 24-byte header of the EtherNet/IP layout followed by the payload.",
  "every command, handle, status, options, context and payload",
  "payload sizes around 2^16 and all header values cannot be enumerated",
  ["src/eip/EncapsPacket.cpp:pack,expand,setData"],
  "Model pack/expand/setData; layout spec with Spec.le; iff theorem including the overflowing side.")
P("C07", "Encapsulation decoding is total and exact",
  "expand on any byte string has no undefined behaviour: it throws exactly when the string is shorter than 24 bytes or its length field differs from the number of payload bytes, and otherwise packing the result reproduces the input byte for byte.",
  "every byte string",
  "malformed inputs are unbounded; tests try two",
  ["src/eip/EncapsPacket.cpp:expand"],
  "Total classification theorem quantified over every out-of-bounds memory oracle; pack-after-expand identity.")
P("C08", "Common packets survive the wire",
  "A common packet packed and expanded again gives the same list of items (type and data, in order) whenever it has fewer than 65536 items each with at most 65535 bytes of data; outside those limits counts or lengths are silently truncated.",
  "every list of items",
  "the limits and the number of items are unbounded",
  ["src/eip/CommonPacket.cpp:pack,expand", "src/eip/CommonPacketItem.cpp:pack"],
  "Induction over the item list using the compositional reader relation; negative witnesses at 65536.")
P("C09", "Truncated common packets are never accepted as complete items",
  "Expanding a byte string that holds an item count but ends in the middle of an item never returns normally: every such input makes the decoder read past the end of its buffer (undefined behaviour), and if those reads happen to return arbitrary bytes the decoder throws; the decoder reports an error only after such an out-of-bounds read.",
  "every byte string and every possible content of memory after the buffer",
  "depends on memory contents after the allocation, which a test cannot vary",
  ["src/eip/CommonPacket.cpp:expand"],
  "Memory oracle parameter for out-of-bounds reads; characterise success by a grammar on byte strings; prove strict = UB, lenient = throw.")
P("C10", "Session commands have the standard layout",
  "The packets made for RegisterSession, UnRegisterSession, SendRRData and ListIdentity carry the right command code, session handle, zero status/options/context and the payload bytes of the EtherNet/IP specification, for every handle, timeout and data.",
  "every session handle, timeout and payload",
  "quantified over all handles and payloads",
  ["src/eip/EncapsPacketFactory.cpp", "src/eip/CommonPacketItemFactory.cpp"],
  "Exact byte-level equality with a spec-side layout.")
# ------------------------------------------------------------------ CIP
P("C11", "Padded EPATH layout and declared size",
  "The packed form of a path made by a public constructor with at least a class ID is the sequence of its logical segments (class, instance, attribute) in order, and its declared size in words is exactly half of its packed length, in both 8-bit and 16-bit mode.",
  "every path of one, two or three IDs and both segment modes",
  "all 2^48 ID combinations and both modes",
  ["src/cip/EPath.cpp:packPaddedPath,getSizeInWords"],
  "Layout theorem against a segment spec; negative witness for the default constructed path.")
P("C12", "EPATH round trip",
  "Packing a path and expanding it gives back an equal path exactly when every ID present is non-zero and, in 8-bit mode, below 256; in particular class-level paths (instance 0) do not survive.",
  "every path and both modes",
  "the failing inputs are the zero IDs a test author does not think of",
  ["src/cip/EPath.cpp:packPaddedPath,expandPaddedPath"],
  "Iff theorem by computation of the decoder on the three layouts.")
P("C13", "EPATH decoding accepts exactly sequences of known segments",
  "Expanding a byte string returns normally only if the string is a concatenation of complete logical segments of the six known kinds; the resulting IDs are those of the last segment of each kind; an unknown segment throws.",
  "every byte string and every content of memory after it",
  "unbounded malformed inputs",
  ["src/cip/EPath.cpp:expandPaddedPath"],
  "Grammar of segments as an inductive spec; decoder correctness by induction on the remaining bytes.")
P("C14", "Message router requests decode uniquely",
  "The packed request is service code, path size in words, path, data; a receiver that reads the size byte recovers service, path bytes and data exactly, so two different requests never have the same bytes (16-bit mode, non-empty path).",
  "every service, path of 1..3 IDs and data",
  "injectivity is a statement about pairs of inputs",
  ["src/cip/MessageRouterRequest.cpp:pack"],
  "Spec-side decoder, round trip, injectivity corollary.")
P("C15", "Message router response decoding is total and exact",
  "Expanding any byte string has no undefined behaviour: it throws exactly when fewer than 4 bytes are present or fewer than twice the additional-status count follow; otherwise service, status, additional status words and data are exactly the corresponding bytes and none is lost.",
  "every byte string",
  "malformed replies are unbounded",
  ["src/cip/MessageRouterResponse.cpp:expand"],
  "Total classification, plus inverse of a spec-side encoder; quantified over memory oracles.")
P("C16", "Failed decoding is not all-or-nothing",
  "When expand of an encapsulation packet or router response throws, the object keeps its old payload but the header fields read before the check have already been replaced.",
  "every object state and every rejected input",
  "exception safety concerns every failing input",
  ["src/eip/EncapsPacket.cpp:expand", "src/cip/MessageRouterResponse.cpp:expand"],
  "State-carrying model of expand; frame theorem for what is kept and what is overwritten.")
P("C17", "Connection parameter builder fields are independent",
  "Starting from an empty builder, setting owner, type, priority, fixed/variable and size in any order, each at most once, gives a word from which every getter returns the value that was set; a size above the field width is reduced modulo the width.",
  "every combination of values, every order of setters, both word widths",
  "orders and values multiply beyond enumeration",
  ["src/cip/connectionManager/NetworkConnectionParams.cpp"],
  "Bit-level model; theorem over permutations of a setter list.")
P("C18", "Connection parameter setters accumulate",
  "Setting a field twice leaves the bitwise OR of the two values, not the second one; the word after any sequence of setter calls is the OR of the individual contributions.",
  "every sequence of setter calls",
  "histories of calls",
  ["src/cip/connectionManager/NetworkConnectionParams.cpp"],
  "Fold over setter lists equals OR of contributions; witness that last-write-wins fails.")
P("C19", "Forward open, large forward open and forward close layout",
  "The request bytes contain every field of the connection parameters at its specified offset, the connection path last, total length 36 (or 40 for large) plus the path, and forward close 12 plus the path; the internal length assertion never fires.",
  "every parameter structure and path",
  "field offsets must hold for all values",
  ["src/cip/connectionManager/ForwardOpenRequest.cpp:pack", "src/cip/connectionManager/LargeForwardOpenRequest.cpp:pack", "src/cip/connectionManager/ForwardCloseRequest.cpp:pack"],
  "Equality with spec layouts; length theorems; spec-side decoding recovers every field.")
P("C20", "Forward open replies are decoded exactly",
  "A reply carrying at least 26 bytes plus twice the application reply size decodes to the identifiers, serials and actual packet intervals at their specified offsets; a shorter reply makes the decoder read out of bounds.",
  "every byte string",
  "short replies come from devices, not tests",
  ["src/cip/connectionManager/ForwardOpenResponse.cpp:expand"],
  "Fixed-length reader composition; UB iff short.")
# ------------------------------------------------------------------ session
P("C21", "Receiving does not depend on TCP segmentation",
  "Receive(n) returns the next n bytes of the peer's stream whatever way the network splits them into segments and however often system calls are interrupted.",
  "every byte stream, every split into segments, every placement of EINTR",
  "schedules of the network cannot be enumerated",
  ["src/sockets/TCPSocket.cpp:Receive"],
  "Model recv as a script of kernel results; induction over the script.")
P("C22", "Replies stay in step with requests",
  "If the peer answers each request with one well-formed frame (success status, matching handle) then the k-th sendAndReceive returns exactly the k-th frame, for any number of requests and any TCP segmentation.",
  "every number of calls, every list of frames, every segmentation",
  "unbounded histories",
  ["src/SessionInfo.cpp:sendAndReceive"],
  "Induction over the list of calls with the stream-remainder invariant.")
P("C23", "sendAndReceive returns only successful replies of this session",
  "Whatever the peer sends, if sendAndReceive returns normally then the reply has encapsulation status success and, when the session handle is non-zero, carries this session's handle.",
  "every byte stream and session",
  "adversarial peers",
  ["src/SessionInfo.cpp:sendAndReceive"],
  "Decision logic over the whole receive path.")
P("C24", "A reply cut short by the peer is not detected",
  "A caller relies on a reply being exactly what the peer sent. When the peer closes the connection early the missing bytes are silently replaced by zeros, so a truncated reply can be returned as a success.",
  "every stream that ends early",
  "needs every cut point",
  ["src/sockets/TCPSocket.cpp:Receive", "src/SessionInfo.cpp:sendAndReceive"],
  "Exact characterisation: result = stream prefix padded with zeros; witness of a truncated reply accepted.")
P("C25", "Registration stores the handle granted by the target",
  "Constructing a session sends RegisterSession with handle 0 and, when the target answers success, every later request carries the granted handle; any other status makes construction throw.",
  "every reply of the target",
  "all replies and histories",
  ["src/SessionInfo.cpp:SessionInfo"],
  "Constructor modelled over the socket script; witness that a peer closing at once yields a session with handle 0.")
P("C26", "Send failures are reported",
  "A caller relies on Send throwing unless all bytes were handed to the operating system. A short count throws, but an error return (-1) is converted to a huge unsigned number and accepted as success.",
  "every return value of the system call and every payload length",
  "error returns of the kernel are hard to provoke",
  ["src/sockets/TCPSocket.cpp:Send", "src/sockets/UDPSocket.cpp:Send"],
  "Model the int/size_t comparison; iff theorem for throwing, witness for -1.")
P("C27", "Explicit request end to end",
  "sendRequest writes exactly one SendRRData frame holding a null address item, one unconnected data item with the request and then the additional items, and when the target answers with a well-formed frame it returns exactly the service, status, additional status, data and extra items of that reply.",
  "every request, path, additional items, reply and TCP segmentation",
  "composition of five codecs over all inputs",
  ["src/MessageRouter.cpp:sendRequest"],
  "Compose C06, C08, C15, C21 through the router model; spec-side adapter encoder.")
P("C28", "Malformed router replies never look like success by themselves",
  "If sendRequest returns normally then the reply frame had at least two items and the second item started with the returned service code, reserved byte and status; replies with fewer than 6 payload bytes or fewer than two items throw; a reply with 6 or 7 payload bytes reads out of bounds.",
  "every reply frame",
  "malformed replies are unbounded",
  ["src/MessageRouter.cpp:sendRequest"],
  "Case analysis over the decoder results.")
# ------------------------------------------------------------------ connection manager
P("C29", "Requested sizes on the wire",
  "forwardOpen requests the user's connection sizes plus 2 bytes when the transport class has a sequence count plus 4 when a real-time header is used, with owner, type, priority and fixed/variable bits unchanged, provided the sum fits the size field; when it does not fit the carry corrupts the other bits.",
  "every parameter structure, both request kinds",
  "carry needs sizes near the limit",
  ["src/ConnectionManager.cpp:forwardOpen"],
  "Arithmetic theorem on the parameter words; witness of the carry.")
P("C30", "Connection serial numbers do not repeat within 65536 opens",
  "Of any two forwardOpen calls in a process (through any managers) that are fewer than 65536 calls apart, the connection serial numbers differ; exactly 65536 apart they coincide.",
  "every sequence of forwardOpen calls",
  "needs 65536 calls",
  ["src/ConnectionManager.cpp:forwardOpen (serialNumberCount)"],
  "Counter model with truncation; arithmetic mod 2^16.")
P("C31", "Connection identifiers chosen by the scanner are distinct",
  "Point-to-point T->O identifiers handed out by a process differ for any two of fewer than 2^32 opens; multicast O->T identifiers differ only within 65536 opens and lose the incarnation part.",
  "every sequence of forwardOpen calls and every incarnation value",
  "needs many opens",
  ["src/ConnectionManager.cpp:forwardOpen (idCount)"],
  "Counter model; witness that the 16-bit counter drops the incarnation.")
P("C32", "Open connections table",
  "After any history of opens, closes and handling, every connection in the table is a live object stored under the low 16 bits of its T->O identifier, no two share those bits, and hasOpenConnections() is true exactly when the table is non-empty.",
  "every history of operations, replies, datagrams and clock readings",
  "histories are unbounded",
  ["src/ConnectionManager.cpp", "src/ConnectionManager.h:_connectionMap"],
  "Transition system with environment inputs in the operations; invariant by induction.")
P("C33", "A successful forward open yields a usable connection",
  "When the target accepts, forwardOpen returns a pointer to a connection that carries the identifiers and intervals of the reply and is in the table, provided no open connection has a T->O identifier with the same low 16 bits; otherwise the returned pointer is already expired although the target opened the connection. When the target refuses, null is returned and the table is unchanged.",
  "every reply and every table state",
  "collisions need many opens or particular devices",
  ["src/ConnectionManager.cpp:forwardOpen"],
  "Step theorem for forwardOpen; witness for the collision.")
P("C34", "Incoming data reaches the right connection",
  "A datagram whose connection identifier equals that of an open connection is handed to that connection and to no other; identifiers whose low 16 bits match no open connection are dropped. Identifiers that only agree in the low 16 bits are misdelivered.",
  "every table state and datagram",
  "identifier coincidences are rare in tests",
  ["src/ConnectionManager.cpp:findOrCreateSocket (receive handler)"],
  "Routing theorem over the table invariant; witness of misdelivery.")
P("C35", "Fixed-size connections deliver only the agreed size",
  "The receive callback of a fixed-size connection is invoked only with data of exactly the agreed length; other datagrams neither call it nor count as a sign of life.",
  "every history and datagram",
  "all lengths",
  ["src/IOConnection.cpp:notifyReceiveData"],
  "Step theorem and trace invariant over histories.")
P("C36", "Received payload decoding",
  "For each combination of transport class and real-time format the callback gets the header, sequence count and data found in the datagram at the specified offsets; a producer using the same layout as this scanner's own transmissions is decoded correctly unless both a sequence count and a real-time header are present, in which case they are swapped.",
  "every payload and flag combination",
  "the failing combination is untested",
  ["src/IOConnection.cpp:notifyReceiveData,notifyTick"],
  "Decode of spec encode for each flag combination; witness of the swap.")
P("C37", "Transmitted sequence numbers",
  "The k-th production period of a connection uses encapsulation sequence number k modulo 2^32 and, for class 1/3, sequence count k modulo 2^16; transmitted datagrams therefore carry strictly advancing numbers and a skipped transmission leaves a gap.",
  "every history of ticks, receptions and data changes",
  "histories",
  ["src/IOConnection.cpp:notifyTick"],
  "Induction over the connection history with a ghost period counter.")
P("C38", "Transmissions are never faster than the negotiated interval",
  "Any two consecutive production periods of a connection are at least its O->T interval apart in real time, however irregularly handleConnections is called.",
  "every schedule of calls (any clock readings)",
  "schedules are unbounded",
  ["src/IOConnection.cpp:notifyTick"],
  "Invariant timer*1000 <= now - last production in nanoseconds, including 32-bit wrap of the timer.")
P("C39", "Calls closer than a millisecond starve the connection",
  "A user calling handleConnections at least as often as required expects the data to be produced. Because each call discards the fraction of a millisecond, a schedule whose calls are all less than one millisecond apart never transmits and never times out.",
  "every schedule with gaps below one millisecond",
  "infinite schedules",
  ["src/IOConnection.cpp:notifyTick"],
  "Induction over schedules; and the positive bound: lost time is below 1 ms per call.")
P("C40", "Connection timeout",
  "A connection is closed by a tick exactly when the whole milliseconds counted since its last accepted datagram exceed T->O interval x 4 x 2^multiplier, for multiplier codes 0..5 and products below 2^32 microseconds; for codes 6 and 7 the stored multiplier becomes 0 and the connection is closed at the first counted millisecond.",
  "every schedule of ticks and receptions, every multiplier and interval",
  "timing histories and overflow",
  ["src/IOConnection.cpp:notifyTick", "src/ConnectionManager.cpp:forwardOpen"],
  "Trace theorem relating the closing tick to the sum of counted milliseconds; witnesses for codes 6 and 7 and for product overflow.")
P("C41", "Close notification happens at most once and only on timeout",
  "Over any history the close callback of a connection runs at most once, only when it is removed by timeout, never by forwardClose, and no receive, send or close callback runs for a connection after it left the table.",
  "every history",
  "histories",
  ["src/ConnectionManager.cpp:handleConnections,forwardClose", "src/IOConnection.cpp"],
  "Trace invariant over the manager transition system.")
P("C42", "forwardClose closes this connection and only this one",
  "forwardClose of a live connection sends one ForwardClose carrying its serial, vendor, originator serial and path and removes exactly that connection whatever the target answers; closing an expired pointer does nothing. A caller still holding a timed-out connection can make it remove a different connection with the same low 16 identifier bits, or trip the assertion.",
  "every table state and pointer",
  "lifetimes and identifier reuse",
  ["src/ConnectionManager.cpp:forwardClose"],
  "Step theorem under the invariant that the pointer is still in the table; witnesses for the stale pointer.")
P("C43", "One implicit socket per manager",
  "However many connections to however many hosts are opened, a manager creates at most one bound UDP socket, and it is bound to port 2222.",
  "every history of opens",
  "all hosts",
  ["src/ConnectionManager.cpp:findOrCreateSocket", "src/sockets/EndPoint.cpp:operator<"],
  "Invariant |sockets| <= 1 from the comparison's behaviour on equal ports.")
P("C44", "EndPoint ordering",
  "operator< on end points is irreflexive, asymmetric and transitive, but it is not a strict weak order and is not consistent with operator==: different end points can be equivalent.",
  "every end point triple",
  "relational laws over all triples",
  ["src/sockets/EndPoint.cpp:operator<"],
  "Order theorems over the model plus witnesses.")
P("C45", "handleConnections needs an implicit socket",
  "handleConnections is free of undefined behaviour in the socket wait exactly when the manager has created a socket, which holds after any successful forwardOpen and keeps holding forever.",
  "every history",
  "depends on history",
  ["src/ConnectionManager.cpp:handleConnections", "src/sockets/BaseSocket.cpp:select"],
  "Invariant over histories; witness of the empty manager.")
P("C46", "Malformed implicit datagrams",
  "A datagram can stop the handling: for every datagram the exact outcome (delivered, dropped, exception, out-of-bounds read) is determined, an exception leaves all connections and their counters unchanged, and a two-byte datagram suffices to read out of bounds.",
  "every datagram",
  "adversarial input",
  ["src/ConnectionManager.cpp:findOrCreateSocket (receive handler)", "src/sockets/UDPSocket.cpp:Receive"],
  "Handler model including zero padding to 8192 bytes; state-preservation theorem; witnesses.")
P("C47", "Truncated datagrams are padded",
  "A callback relies on getting only bytes that arrived. UDP receives return a full-size buffer padded with zeros, so a datagram whose item length exceeds the bytes received is delivered with invented zero bytes.",
  "every datagram and declared length",
  "all lengths",
  ["src/sockets/UDPSocket.cpp:Receive"],
  "Exact padding theorem; witness of delivered zeros.")
P("C48", "Waiting time conversion",
  "The interval given to select is never negative, has a microsecond part below one million and equals the remaining milliseconds when they are positive and zero otherwise.",
  "every millisecond count",
  "all integers including negative",
  ["src/sockets/BaseSocket.cpp:makePortableInterval"],
  "Truncated integer division model; arithmetic.")
P("C49", "handleConnections may not return while datagrams keep arriving",
  "A caller relies on handleConnections returning after about the given timeout and on ticks being run. The wait loop continues as long as a socket is ready regardless of the deadline, so with a steady stream of datagrams ticks are postponed without bound.",
  "every number of rounds and every clock",
  "unbounded schedules",
  ["src/sockets/BaseSocket.cpp:select"],
  "Round-based model: the number of rounds equals the number of ready results, independent of elapsed time.")
P("C50", "Transmitted frame contents",
  "Every transmitted datagram is a common packet with a sequenced address item holding the O->T identifier and sequence number and a connected data item holding, in order, the sequence count (class 1/3), the run header 1 (real-time format) and the user's current output data after the send callback, and goes to the negotiated end point; a fixed-size connection transmits only data of the agreed size.",
  "every connection, history and output data",
  "all data and flags",
  ["src/IOConnection.cpp:notifyTick"],
  "Equality with a spec frame; decoding by the common packet decoder.")
P("C51", "Connections do not interfere",
  "Delivering a datagram to, or ticking, one connection leaves the state of every other connection unchanged.",
  "every table and operation",
  "all pairs of connections",
  ["src/ConnectionManager.cpp"],
  "Frame theorem over the heap.")
# ------------------------------------------------------------------ discovery
P("C52", "Discovery reports every well-formed answer once, in order",
  "If the network delivers any number of well-formed ListIdentity answers and then nothing until the receive timeout, discover() returns one device per identity item, in order of arrival, each with the address and identity fields of its answer.",
  "every list of answers",
  "any number of devices",
  ["src/DiscoveryManager.cpp:discover"],
  "Spec-side encoder of answers; induction over the list.")
P("C53", "Discovery failure semantics",
  "discover() ends normally only by the would-block error; any other socket error and any rejected answer is thrown and all devices found so far are lost; an answer whose item is shorter than an identity record reads out of bounds.",
  "every sequence of receive outcomes",
  "all sequences",
  ["src/DiscoveryManager.cpp:discover"],
  "Classification by induction over the receive script; witnesses.")
# ------------------------------------------------------------------ objects
P("C54", "Identity object",
  "Constructing an IdentityObject sends one GetAttributesAll to class 1 instance 1 whatever instance number was given, throws on any non-success status, and on a well-formed reply holds exactly the fields of the reply.",
  "every instance number and reply",
  "all replies and instances",
  ["src/IdentityObject.cpp"],
  "Device-parametric model with request trace; decode of spec encode; witness for instance 2.")
P("C55", "Parameter object decoding",
  "For a device that returns well-formed attributes, a ParameterObject holds exactly the value, type, flags, names, limits, scaling and precision of the device, and the constructor sends exactly the documented sequence of requests.",
  "every attribute content",
  "variable-length strings and paths in every combination",
  ["src/ParameterObject.cpp"],
  "Device-parametric model; compositional decoding.")
P("C56", "Scaling conversions are inverse and monotone",
  "Converting an actual value to engineering units and back gives the same value in exact arithmetic whenever multiplier, base and divisor are non-zero; for every monotone rounding the conversion preserves order, so limits stay limits.",
  "every scaling setting and value; every monotone rounding",
  "all 2^64 settings and real values",
  ["src/ParameterObject.cpp:actualToEngValue,engToActualValue"],
  "Rational arithmetic with a rounding function parameter.")
P("C57", "Engineering to actual conversion can overflow",
  "A user relies on engToActualValue being defined for every scaling setting. The product of multiplier and base is computed in int and overflows (undefined behaviour) exactly when it is at least 2^31.",
  "every multiplier and base",
  "all 2^32 pairs",
  ["src/ParameterObject.cpp:engToActualValue"],
  "Int-range model of the product; iff theorem and witness.")
P("C58", "updateValue",
  "updateValue sends one GetAttributeSingle for the value attribute, replaces the stored value by the reply on success, and on any other status throws and keeps the old value and all other fields.",
  "every object and reply",
  "all replies",
  ["src/ParameterObject.cpp:updateValue"],
  "Step theorem.")
P("C59", "File upload completeness",
  "With a device that follows the file transfer protocol, beginUpload followed by handleTransfers until it returns false calls the handler exactly once with SUCCESS and exactly the file content, for files of any length below 2^32, across the wrap-around of the 8-bit packet number.",
  "every file content and every transfer size 1..255",
  "file sizes beyond 256 packets, all contents",
  ["src/fileObject/FileObjectLoadedState.cpp", "src/fileObject/FileObjectUploadInProgressState.cpp"],
  "Spec-side device as a state machine; induction over remaining content.")
P("C60", "File upload integrity against any device",
  "Whatever the device answers, if the handler is called with SUCCESS then the content has exactly the announced length and is the concatenation, in order, of the payloads of the packets received since the upload began, whose numbers were 0,1,2,... modulo 256.",
  "every device behaviour and number of calls",
  "adversarial devices",
  ["src/fileObject/FileObjectUploadInProgressState.cpp:transfer"],
  "Invariant over transfer histories with a ghost list of accepted packets.")
P("C61", "The upload handler is called once",
  "A user relies on one completion call per upload. The handler can run again: an error status calls it and still reports 'in progress', and calling handleTransfers after completion requests another packet in the finished upload.",
  "every device behaviour",
  "histories",
  ["src/fileObject/FileObjectUploadInProgressState.cpp:transfer"],
  "Exact relation between return value and handler calls; witnesses.")
P("C62", "File object state follows the device",
  "Constructing a FileObject ends in the state named by the device's state attribute (0 non-existent, 1 empty, 2, 3 and 5 loaded), throws for any other value or a failed read, and beginUpload reaches 'upload in progress' only from 'loaded' after a success reply; in other states the handler is never called.",
  "every reply",
  "all replies",
  ["src/fileObject/FileObjectState.cpp:SyncState", "src/fileObject/FileObjectLoadedState.cpp"],
  "Decision logic.")
P("C63", "PowerFlex fault listing",
  "handleFaultParameters reports faults 1,2,... in order until the first zero code (at most ten), each with the values read from the device, then clears the queue exactly when clearing is enabled and at least one fault was reported.",
  "every device content",
  "all device contents",
  ["src/vendor/ra/powerFlex525/DPIFaultManager.cpp:handleFaultParameters", "src/vendor/ra/powerFlex525/DPIFaultParameter.cpp"],
  "Device-parametric model with request trace; induction over the fault index.")
P("C64", "Unknown fault codes stop the listing",
  "A user relies on every fault being reported. A code missing from the built-in table throws: earlier faults were reported, later ones are not, and the queue is not cleared.",
  "every device content",
  "all codes",
  ["src/vendor/ra/powerFlex525/DPIFaultCode.cpp", "src/vendor/ra/powerFlex525/DPIFaultManager.cpp"],
  "Exact characterisation and witness.")
P("C65", "DPI fault object decoding",
  "A DPIFaultObject read from a 30-byte reply holds the code, port, device, 16-byte text, timer and validity flags at their specified offsets; a failed read throws.",
  "every reply",
  "all replies",
  ["src/vendor/ra/powerFlex525/DPIFaultObject.cpp"],
  "Fixed-length decode theorem.")
P("C66", "Yaskawa requests agree with 8-bit CIP requests",
  "For IDs below 256 the Yaskawa request bytes equal the standard request bytes in 8-bit mode.",
  "every service, path of 1..3 IDs below 256 and data",
  "all inputs of two programs",
  ["src/vendor/yaskawa/mp3300iec/Yaskawa_EPath.cpp", "src/vendor/yaskawa/mp3300iec/Yaskawa_MessageRouterRequest.cpp"],
  "Two models, equality theorem.")
P("C67", "Log filtering",
  "A message is handed to the appender exactly when the global level is not OFF and the message level does not exceed it.",
  "every pair of levels and every history of setLogLevel",
  "histories",
  ["src/utils/Logger.cpp"],
  "Decision logic and history theorem.")
P("C68", "TCP connect outcomes",
  "The connecting constructor returns only when the connection was established; every failure after the socket was created inside the guarded region closes it; an interrupted wait is reported as a timeout instead of being retried.",
  "every sequence of system call results",
  "kernel results",
  ["src/sockets/TCPSocket.cpp:TCPSocket"],
  "Model as decision logic over system call results with an open-descriptor ghost.")
# ------------------------------------------------------------------ additions
P("C69", "Settings chained after the redundant-owner setter are lost",
  "A user relies on chained builder setters changing the builder. All setters but setRedundantOwner return the builder itself; setRedundantOwner returns a copy, so every setting chained after it is applied to a temporary and the builder keeps only what was set up to and including it.",
  "every chain of setter calls",
  "all chains",
  ["src/cip/connectionManager/NetworkConnectionParams.h", "src/cip/connectionManager/NetworkConnectionParams.cpp"],
  "Model the chain with its returned object; theorem over all chains and a witness that settings are lost.")
P("C70", "Predefined connection parameter constants agree with the builder",
  "Every constant of NetworkConnectionParams equals what the builder produces for the same setting in a small forward open, and every setting but the size in a large forward open is the small one shifted by 16 bits. For every direction, trigger and class the constants of the transport byte combine to the byte with these fields.",
  "every constant and every setter value",
  "all values of all setters",
  ["src/cip/connectionManager/NetworkConnectionParams.h", "src/cip/connectionManager/NetworkConnectionParams.cpp"],
  "Equalities over the bit-level model.")
P("C71", "Destroying a session",
  "Destroying a session writes exactly one UnRegisterSession frame carrying the session's handle. A user relies on destruction being harmless: if the system accepts only part of the frame, an exception leaves the destructor and the process is terminated.",
  "every session and every return value of the system call",
  "kernel results",
  ["src/SessionInfo.cpp:~SessionInfo"],
  "Destructor modelled with exceptions turned into termination; iff theorem and witness.")
P("C72", "Late replies are attributed to the next request",
  "A user relies on a reply answering the request it is returned for. Neither command nor sender context is checked: a reply that arrives after the receive timeout of its request is returned for the next request, whatever the two requests were.",
  "every pair of requests, every well-formed successful reply",
  "needs timing of the peer",
  ["src/SessionInfo.cpp:sendAndReceive"],
  "Theorem over all requests and replies: the first call throws, the second returns the first reply.")
P("C73", "Limits set in engineering units",
  "setEngMinValue, setEngMaxValue and setEngDefaultValue store the converted value without its fraction in the chosen integer type and change nothing else; a limit set to the engineering value of an actual value reads back as that value. If the converted value is not a value of the type the behaviour is undefined.",
  "every scaling setting, integer type, limit and value; every rounding",
  "all settings and real values",
  ["src/ParameterObject.h:setEngMinValue,setEngMaxValue,setEngDefaultValue"],
  "Rational arithmetic with a rounding function parameter; encode after decode is the identity.")
P("C74", "Typed access to stored values",
  "getActualValue and the getters of the limits return the little-endian number at the start of the stored bytes, in two's complement for signed types. A user relies on a defined result for every type: with a type wider than the stored value the getter reads out of bounds.",
  "every integer type and every stored value",
  "all widths, types and contents",
  ["src/ParameterObject.h:getActualValue,encodeValue"],
  "Equality with a numeric specification; out-of-bounds theorem.")
P("C75", "Malformed transfer packets",
  "A user relies on a bad packet being reported to the handler. A successful answer shorter than two bytes, or a first or middle packet shorter than the announced packet size, is read out of bounds; a last packet without a checksum throws std::length_error; an abort packet or an unknown type throws; in the throwing cases the handler is not called and the upload can go on.",
  "every answer to a transfer request",
  "all packets",
  ["src/fileObject/FileObjectUploadInProgressState.cpp:transfer"],
  "Step theorem for each kind of packet.")
P("C76", "Listing faults again",
  "Against a drive that answers from its fault queue every fault is reported once and in order, and the queue is cleared exactly when asked for. A second call then reports nothing; without clearing it reports every fault again, although the handler is documented to get new faults.",
  "every queue of at most ten known faults, every setting of the manager",
  "all device histories",
  ["src/vendor/ra/powerFlex525/DPIFaultManager.cpp:handleFaultParameters"],
  "Drive modelled as a state machine; composition of two calls.")
P("C77", "Making and destroying a session",
  "A session that cannot be made, because connecting or registering fails, leaves no socket open (except when the socket cannot be made non-blocking, see C68). A session that is made sits on an established connection; making and destroying it writes RegisterSession first and UnRegisterSession with the granted handle last, and closes the socket.",
  "every sequence of system call results and every reply of the peer",
  "kernel results and peers",
  ["src/SessionInfo.cpp:SessionInfo,~SessionInfo", "src/sockets/TCPSocket.cpp:TCPSocket,~TCPSocket"],
  "Constructor and destructor modelled over the open descriptors and the stream.")
P("C78", "Listeners that call back into the manager",
  "Receive, send and close listeners run inside handleConnections and may call the manager. Whatever calls other than handleConnections they make, each connection is ticked at most once per call and in the order of the keys, a connection that stays open is ticked, connections do not interfere, the table stays consistent, frames, pacing and timeouts are as without calls, a connection leaves the table only after its close listener or a ForwardClose request, and then stays silent. A user relies on every call being allowed; but a send or close listener that closes its own connection is undefined behaviour, always; a close listener that reopens the connection may get an expired pointer; and a connection reopened by another listener may be removed at once without notice. Nested handleConnections can be undefined behaviour or send numbers out of order.",
  "every history, every list of calls made by every run of every listener, every reply",
  "all interleavings of listeners' calls with the loop over the connections",
  ["src/ConnectionManager.cpp:handleConnections,forwardOpen,forwardClose", "src/IOConnection.cpp:notifyTick,notifyReceiveData"],
  "Model of handleConnections split at every listener, calls in between; simulation by small steps of the model with atomic listeners, so the invariants carry over; conservativity for listeners without calls; concrete witnesses for what goes wrong.")
P("C79", "Objects over a TCP session, byte for byte",
  "Over a session with a target whose reply frames carry the data of an identity, a parameter, a file or the faults of a drive, the object classes return exactly these data and write exactly the documented frames in order, however the bytes are cut into segments. For a file this holds from connecting to closing: the handler gets the content once, and no descriptor stays open.",
  "every content, every reply frame that carries it, every segmentation, every number of packets",
  "all segmentations of all byte streams through four layers",
  ["src/MessageRouter.cpp:sendRequest", "src/SessionInfo.cpp:sendAndReceive", "src/IdentityObject.cpp", "src/ParameterObject.cpp", "src/FileObject.cpp", "src/vendor/ra/powerFlex525/DPIFaultManager.cpp"],
  "The session is an instance of the responder the object theorems quantify over; show that a stream of reply frames makes it grant the requests, then compose.")
P("C80", "Comparing and showing paths and end points",
  "Two paths compare equal exactly if they have the same identifiers, which is exactly if they are sent as the same bytes; their text shows the identifiers in order. End points compare equal exactly if host and port and the system's address are the same; a port outside its range is not refused, and spellings of one address differ.",
  "every path, host and port",
  "all pairs",
  ["src/cip/EPath.cpp:operator==,toString", "src/sockets/EndPoint.cpp"],
  "Case analysis; injectivity of the wire form.")
P("C81", "A silent target is noticed and a live one is kept",
  "The loop while (manager.hasOpenConnections()) manager.handleConnections(t) ends when the targets have gone: whatever happened before, after more calls than its timeout has milliseconds a connection for which nothing is accepted has been closed and is no longer open. A connection whose data keep arriving is never closed, however long the loop runs. (Calls must be a millisecond apart, see C39, and the timeout below 2^32 microseconds, see C40.)",
  "every history, then every number of calls at every times, with data written, pointers kept and opens by other managers in between",
  "liveness and safety over unbounded histories",
  ["src/ConnectionManager.cpp:handleConnections,hasOpenConnections", "src/IOConnection.cpp:notifyTick,notifyReceiveData"],
  "Induction over the calls: every call ticks every open connection, so silence grows; invariant bounding the counter by the time since the last tick before a reception.")
P("C82", "Scanner and target agree on the open connections",
  "Against a target that keeps its connections by connection triad and answers every forward open and forward close, every connection the manager reports as open is open in the target, no two with the same triad, and if nothing is lost the manager's open connections are exactly the target's. Exceptions: a forward open that throws after the target accepted it, an identifier with low 16 bits already in use, and a local timeout leave a connection in the target that the manager never closes.",
  "every history of opens, closes and service calls, every choice of identifiers and refusals by the target",
  "joint histories of two parties",
  ["src/ConnectionManager.cpp:forwardOpen,forwardClose,handleConnections"],
  "A target as a transition relation over its set of connections; joint invariant by induction over the history; invariance of the orphans; concrete witnesses.")

P("C83", "The connection manager over a TCP session, byte for byte",
  "A history of the manager over a session is a history of the manager with the answers of the session filled in. Whatever the target and the network do, the bytes it writes are exactly the frames of its requests, in order; over the whole life of the session they are framed by one registration and one end of session, can be cut into frames in exactly one way, and a target that reads a frame finds the request. When reply frames arrive, cut into segments in any way, the history gets exactly what they carry, in order.",
  "every history of calls, every initial state, every behaviour of target and network, every segmentation",
  "composition of three layers over unbounded histories and streams",
  ["src/ConnectionManager.cpp:forwardOpen,forwardClose", "src/MessageRouter.cpp:sendRequest", "src/SessionInfo.cpp:sendAndReceive", "src/sockets/TCPSocket.cpp:Send,Receive"],
  "The manager model composed with an arbitrary responder; refinement by induction over the history; the responder instantiated with the session model.")

P("C84", "Listeners that throw",
  "The exception of a receive, send or close listener leaves handleConnections unchanged as the last thing that happens; no connection is added or removed by a call that throws, and nothing else but failing system calls, malformed packets and short sends makes it throw. A datagram whose listener threw counts as received; a send listener that throws sends nothing and uses up the sequence number. The close listener of a connection runs at most once more than there were calls that threw. A user relies on a close listener running once, on a connection being gone after it, and on the other connections being served; but a close listener that throws runs again at every call, connections with greater keys are not served meanwhile, connections closed in the same call are closed again, and a connection whose close listener has run can come back to life.",
  "every history, every listener that throws anywhere, every exception",
  "all points at which user code can throw, over unbounded histories",
  ["src/ConnectionManager.cpp:handleConnections", "src/IOConnection.cpp:notifyTick,notifyReceiveData", "src/sockets/BaseSocket.cpp:select"],
  "Listeners' exceptions as inputs of the model; case analysis of the calls that throw, induction over the loops and histories; concrete witnesses.")

P("C85", "Sockets are closed exactly once, and none leaks",
  "Whatever a process does with a connection manager, its connections and its own descriptors, every system call of the library is made on a descriptor that is open: none is used after it was closed and none is closed twice. Afterwards exactly these descriptors are open: those of the rest of the process, one for each implicit socket of the manager (at most one), and one for each connection that a pointer still reaches, all different. A forward open that yields no connection leaves no descriptor behind, whichever step failed; once the manager is destroyed and no connection is held nothing of it is left. Each connection sends on its own descriptor; what is bound is bound to port 2222 of all addresses.",
  "every history of calls, failures of system calls, destruction, and descriptors opened and closed by the rest of the process",
  "all failure points and lifetimes over unbounded histories",
  ["src/ConnectionManager.cpp:forwardOpen,findOrCreateSocket,~ConnectionManager", "src/sockets/UDPSocket.cpp", "src/sockets/UDPBoundSocket.cpp", "src/IOConnection.h:_socket"],
  "The manager with the descriptors of its sockets and a log of the system calls; invariant relating the open descriptors to owners, by induction over the history; refinement to the manager without descriptors.")
P("C86", "Descriptors that do not fit a set",
  "Serving connections is defined exactly if the descriptor of the implicit socket is below 1024, and then waits on exactly the implicit sockets with a limit that covers them. If the system gives the lowest free descriptor and the process never has more than 1022 open, it always is. If the first forward open is made while the descriptors 0 to 1022 are open it succeeds, but serving is undefined from then on, even if the other descriptors are closed.",
  "every history, every choice of descriptors by the system",
  "needs processes with a thousand descriptors and all histories",
  ["src/sockets/BaseSocket.cpp:select", "src/ConnectionManager.cpp:findOrCreateSocket,handleConnections"],
  "Case analysis of the descriptors of the sockets along the history.")
P("C87", "Discovery's socket and time",
  "Discovery makes one socket, sets the receive timeout and the permission to broadcast before it sends, sends one request to the broadcast address, and closes the socket exactly when it returns or throws. With a positive timeout it returns, not before the timeout, and with exactly the devices whose answers had arrived by then; if it needs no time itself, it returns at the first moment at which nothing was received for as long as the timeout. A user relies on the timeout bounding the time of discovery: but answers that keep coming keep it going, and with a timeout of zero or less it never returns.",
  "every timeout, every sequence of answers with their times, every time needed between two receives, every failure",
  "all arrival times",
  ["src/DiscoveryManager.cpp:discover,makeSocket", "src/sockets/BaseSocket.cpp:setRecvTimeout,makePortableInterval"],
  "Discovery with a descriptor and a log of system calls; recvfrom with a receive timeout as a function of the arrival times; induction over the arrivals.")
P("C88", "How long a request takes",
  "With a timeout of some milliseconds set, every request over a session ends: with the verdict on the reply, no later than its last byte arrives, if no gap in it is longer than the timeout; with the system's EAGAIN exactly one timeout after the last byte, if the target falls silent before the reply is complete; in every case after at most as many timeouts as a frame can have bytes, and one for each interruption. A user relies on the timeout bounding the request: but a target that sends one byte per timeout makes the request take as many timeouts as the reply has bytes, and with a timeout of zero or less the request never ends when the target is silent.",
  "every request, every sequence of events of the network with their times, every timeout",
  "all arrival times",
  ["src/SessionInfo.cpp:sendAndReceive", "src/sockets/TCPSocket.cpp:Receive", "src/sockets/BaseSocket.cpp:setRecvTimeout,makePortableInterval"],
  "The session with arrival times as a refinement of the session without; a potential (bytes still wanted plus interruptions) bounds the number of waits.")
P("C89", "A late reply",
  "If every reply arrives before the timeout after its request, the k-th request gets the k-th reply. A user relies on a request that timed out having no effect on later ones: but when only the first reply comes after its timeout, the first request fails and every later request returns, as a success, the reply to the request before it.",
  "every number of requests, all replies, all times of requests and arrivals",
  "unbounded histories and all times",
  ["src/SessionInfo.cpp:sendAndReceive", "src/sockets/TCPSocket.cpp:Receive"],
  "A client that makes requests at given times over the session with times; induction over the requests.")
P("C90", "How long the operations of objects take",
  "Over a session with a positive timeout every operation of an object ends, whatever the target does: reading an identity, a file object or a fault object makes at most one request, reading a parameter six, updating it one, beginning an upload and each step of it one, reading a fault of a drive four, listing its faults 41; and the time is at most 65559 timeouts for each and one for every interruption. If what the target sends comes in time, the operation ends exactly as without times, so that what is known about the bytes (C79) holds.",
  "every target, all arrival times, every object, every timeout",
  "all arrival times and all replies",
  ["src/IdentityObject.cpp", "src/ParameterObject.cpp:ParameterObject,updateValue", "src/FileObject.cpp", "src/vendor/ra/powerFlex525/DPIFaultManager.cpp:handleFaultParameters", "src/SessionInfo.cpp:sendAndReceive"],
  "A calculus that carries the number of requests, the time and the simulation by the session without times through the programs of the objects; the readers of replies have no undefined behaviour but stray reads.")
P("C91", "Objects whose replies come late",
  "If a target says nothing before the timeout, an operation on it throws EAGAIN exactly one timeout after it began, having written one request and changed nothing. A user relies on being able to go on after that: but when the reply then comes, the next update of another parameter object takes the value of the first for its own, and an upload that is continued takes the late packet, finds its repetition where the next packet should be, and ends with an error.",
  "every pair of parameter objects, every upload, all values, all times",
  "all arrival times and all replies",
  ["src/ParameterObject.cpp:updateValue", "src/fileObject/FileObjectUploadInProgressState.cpp:transfer", "src/SessionInfo.cpp:sendAndReceive"],
  "The operations over the session with times, with the replies of C88 and C89.")
P("C92", "Comparing packets, items and revisions",
  "Two packets a user has made, changed or decoded compare equal exactly if they are the same bytes on the wire, and unequal exactly if not. The same holds of items with less than 65536 bytes; it fails for longer ones, as an item with a multiple of 65536 bytes is sent like the empty item. Two revisions compare equal exactly if both their numbers are equal, and exactly if they are shown as the same text.",
  "every pair of packets obtained in any way, of items and of revisions",
  "all pairs of all sizes",
  ["src/eip/EncapsPacket.cpp:operator==,operator!=,setData", "src/eip/CommonPacketItem.cpp:operator==,operator!=,pack", "src/cip/CipRevision.cpp:operator==,toString"],
  "The context of every packet a user can have is 8 bytes long, by induction on how it was obtained; the encodings are injective.")
P("C93", "Opening and closing connections over a slow session",
  "Over a session with a positive timeout, each call of a connection manager makes at most one request, a whole history takes at most 65559 timeouts for each request and one for every interruption, and if what the target sends comes in time it is exactly the history without times. A forward open to a silent target throws EAGAIN after one timeout and changes nothing but the serial number; a forward close changes nothing. A user relies on the returned connection being the one that the target opened for the call: but after a late reply it has the identifiers and serial number of the connection before, with its own path; closing it closes the other one in the target, and the target keeps a connection that the manager never knew.",
  "every history of a manager, every target, all arrival times; every reachable manager and every pair of connections",
  "all histories, arrival times and replies",
  ["src/ConnectionManager.cpp:forwardOpen,forwardClose", "src/SessionInfo.cpp:sendAndReceive"],
  "Induction on histories over the session with times, from the cost and simulation of one request (C90) and of a step of the manager (C33, C83).")
P("C94", "How promptly connections are handled",
  "A call of handleConnections with a timeout of t milliseconds that returns normally has received, in order and once each, exactly the datagrams that had arrived when it returned; it lasts more than t-1 milliseconds, and at most t and the time that handling them takes. In a loop of such calls no datagram is lost. A connection still open after n calls has been asked for output data if n*(t-1) milliseconds are at least its interval. A user relies on a loop of calls keeping connections alive for any timeout: but with t = 1, while datagrams for nobody arrive more often than once a millisecond, no connection ever sends or times out.",
  "every manager, every timeout, all arrival times and contents of datagrams, any handling times, any number of calls",
  "all arrival times and unboundedly many calls",
  ["src/ConnectionManager.cpp:handleConnections", "src/sockets/BaseSocket.cpp:select", "src/IOConnection.cpp:notifyTick", "examples/ImplicitMessagingExample.cpp"],
  "select and handleConnections over a queue of datagrams with arrival times, which refine the model without times; induction over the calls with a bound on the production timer.")
P("C95", "Which calls of a connection manager are defined",
  "In every reachable state a call of a connection manager has undefined behaviour exactly if: it opens after 2^31-1 opens of the process, with a timeout code above 31, or is answered with success by an incomplete reply or one with a short socket address; or it waits before any open has returned a connection, or meets a datagram that is not a common packet, has no room for an identifier or no room for the header of its connection, before anything that ends the wait. An assertion ends a call exactly if it closes, through a pointer that the user kept, a connection that is no longer in the manager and whose key is free. So a program that passes proper arguments, waits only after an open succeeded and closes only open connections always runs on, whatever a rule-abiding target and network do and whatever its listeners throw.",
  "every history of a manager, every call, every reply, every sequence of arrivals",
  "all histories, replies and datagrams",
  ["src/ConnectionManager.cpp:forwardOpen,forwardClose,handleConnections,findOrCreateSocket", "src/sockets/BaseSocket.cpp:select", "src/IOConnection.cpp:notifyReceiveData"],
  "The table and the settings of connections do not change while a wait receives, so the first arrival that does not let it go on decides; for histories, the first call without a defined outcome is one of the cases.")
P("C96", "The example programs with explicit messages",
  "Whatever the device does, the explicit messaging example asks for the vendor and then writes the assembly, reports each answer and exits with 0, unless an answer does not come or an announced vendor has fewer than two bytes. The file example exits with 0 and the exact file written if the device sends one; whatever the device does, what it writes is exactly what the device sent for the announced size, and it writes nothing otherwise; but it never ends if the device answers every transfer with an error, and it exits with 0 without a file if the device has none or refuses to send it. The parameter example reads every parameter the device has, with all attributes exactly if the class says so, and its exit code 0 says that all of them were answered; but it reads out of bounds if the first parameter has a value of one byte.",
  "every device, every list of parameters, every file, every number of iterations",
  "all behaviours of the device",
  ["examples/ExplicitMessagingExample.cpp", "examples/FileObjectExample.cpp", "examples/ParameterObjectExample.cpp"],
  "The programs over the link model of the objects they use; induction over parameters and packets; soundness by inversion.")
P("C97", "The example program with implicit messages",
  "Whatever the target and the network do, if the implicit messaging example exits it exits with 0 and no connection registered, after an open request and either a refusal and no wait, or a connection that timed out within 200 waits and no close request, or 200 waits and exactly one close request. Its open request is always the same but for the serial number, and every datagram it sends goes to the connection's address, counted by ones, and carries 32 zero bytes. If the target and network keep to the rules it has no undefined behaviour. But it catches nothing: if a wait throws, for example as a signal interrupts it, it ends at once and the target is never asked to close.",
  "every target, every sequence of arrivals and times, every history of the process before",
  "all schedules of up to 200 waits",
  ["examples/ImplicitMessagingExample.cpp", "src/ConnectionManager.cpp:forwardOpen,handleConnections,forwardClose,hasOpenConnections"],
  "The program over the model of the manager; induction over the waits, from the theorems about histories of a manager (C37, C50, C51, C95).")
P("C98", "Several managers in one process",
  "However a program makes, calls and destroys connection managers, each one behaves exactly as if it were alone and the opens of the others only advanced the counters: its calls have the same effects and results, and no operation on another manager changes it. The serial numbers count the opens of all managers from 1 modulo 65536, the point-to-point T->O identifiers such opens above the random number of the manager that made the first one, so two opens of the process less than 65536 apart differ in serial number, and point-to-point ones in identifier. Destroying a manager sends nothing, and only the connections that the program keeps can still be reached. A user relies on the random number telling managers apart and on forwardClose closing the connection it is given: but all managers number above the first one's number, and a connection closed through another manager stays open in its own, while the process is aborted or a connection of the manager called is removed instead.",
  "every sequence of constructions, destructions and calls of any number of managers, all calls and replies",
  "all interleavings of any number of managers",
  ["src/ConnectionManager.cpp:ConnectionManager,~ConnectionManager,forwardOpen,forwardClose", "src/ConnectionManager.h:ConnectionManager"],
  "A process is a list of managers and the shared counters; each manager's part of a history is a history of one manager by simulation, with the opens of others as steps of the counters; the counters are characterised by an invariant over the process.")

P("C99", "Objects made by hand",
  "A parameter or identity object made without a device starts with zeros of the size given, empty texts and a scaling that changes nothing, and after any series of setter calls each getter returns what its setter was last called with, or the initial value if it never was; the product name comes back whole whatever its length. A limit set in engineering units is stored converted with the scaling in force at that call and is not converted again when the scaling changes; no setter changes another attribute. A typed getter of a new object returns 0 if the type fits the size given and otherwise reads out of bounds. A user relies on getParameter() being the instance the object stands for: in an object made by hand it is 0 and cannot be set.",
  "every series of setter calls with any arguments, every object to start from, every size, every integer type, every rounding",
  "all setter histories, unbounded in length, and all argument values",
  ["src/ParameterObject.cpp:ParameterObject,setScalable,setReadOnly,setType,setName,setUnits,setHelp,setScalingMultiplier,setScalingDivisor,setScalingBase,setScalingOffset,setPrecision,getParameter", "src/ParameterObject.h:setEngMinValue,setEngMaxValue,setEngDefaultValue", "src/IdentityObject.cpp:IdentityObject,setVendorId,setDeviceType,setProductCode,setRevision,setStatus,setSerialNumber,setProductName,getProductName"],
  "Setter calls are a type with an interpreter; by induction over the series each attribute is the last value picked out of it by a small separate function.")

P("C100", "Threads that share a session",
  "If a program lets only one thread at a time make a call over a session, then in every schedule, however replies are cut into pieces, each call of each thread gets the reply to its own request, exactly as in a program with one thread, and each thread's requests go out in order, each once. handleConnections does not use the session, so another thread may do so meanwhile. A user may rely on the session keeping replies apart without such a lock: but even if whole replies are received one at a time, the call that ends as the k-th gets the reply to the request sent as the k-th, whichever thread sent it, so two threads can get each other's replies without any error; and if receives overlap, calls return packets that the device never sent. The lock does not help against late replies: once calls have timed out, every later call of any thread gets the reply to a request that lies as many calls back as there were timeouts, and if a timeout expired in the middle of a reply, packets are returned that were never sent.",
  "every number of threads, all requests of each, every peer that answers each request with a well-formed packet, every interleaving of the system calls and every segmentation of the replies",
  "all schedules of all threads, unbounded in length",
  ["src/SessionInfo.cpp:sendAndReceive", "src/sockets/TCPSocket.cpp:Send,Receive", "src/ConnectionManager.cpp:handleConnections"],
  "Small steps: every send and recv of a thread is one step of a transition system with the bytes in flight; invariants over all schedules: the part of a reply held by the one receiving thread and the bytes in flight are together the packed replies still to be handed out.")

P("C101", "The order of calls of different managers",
  "A program with several connection managers may call them in any order, for example from a loop that serves one after the other or from one thread per manager under a common lock: if every manager gets its own calls in the same order and the forward opens of all managers come in the same order, then every call sends, calls back and returns the same, and every manager ends in the same state. If at most one manager opens connections, every interleaving gives the same. The order of opens of two managers matters: the numbers of their connections are swapped.",
  "every number of managers in every state, every finite sequence of calls, every reordering of it",
  "all interleavings of all call sequences",
  ["src/ConnectionManager.cpp:forwardOpen,forwardClose,handleConnections", "src/IOConnection.cpp:notifyTick,setDataToSend"],
  "A call that is not an open does the same for all values of the shared counters, so two calls of different managers, not both opens, can be exchanged; by induction the first call of one order is moved to the front of the other.")

P("C102", "The state of a file object, and several uploads with one object",
  "getState()->getStateCode() tells what an object will do: beginUpload makes its request exactly if it is FILE_LOADED, handleTransfers exactly if it is TRANSFER_UPLOAD_IN_PROGRESS. getState()->SyncState() sets it to what the device answers, from every state and without calling a handler, or throws and leaves the object as it is. With one object any number of files can be uploaded one after the other if SyncState is called before each beginUpload: each handler is called once with its file. A user may rely on beginUpload alone for the second file: but the state stays in progress after a complete upload, so the second beginUpload does nothing, its handler is never called, and handleTransfers goes on with the first file.",
  "every state of the object, every device, every list of files, packet sizes and handlers",
  "all histories of an object and all devices",
  ["src/FileObject.h:getState", "src/fileObject/FileObjectState.cpp:getStateCode,SyncState", "src/fileObject/FileObjectLoadedState.cpp:initiateUpload", "src/fileObject/FileObjectUploadInProgressState.cpp:initiateUpload,transfer"],
  "SyncState as an operation of the object model; C60 is proved for histories with it; the list of uploads by induction from the theorem for one upload.")

P("C103", "What the Yaskawa, identity and discovery examples do",
  "Whatever the device answers, the Yaskawa example reads assembly 0x65, reads assembly 0x6F, writes 128 bytes to 0x6F, in this order, reports each answer and ends with exit code 0 even if every request is refused; it ends by the exception of the first request without an answer. A read gives the first 4 * sizeof(Buffer) bytes of the reply, so it gives the whole assembly only if the size happens to agree. A user may expect that a shorter reply is reported: but it is read out of bounds. The identity example makes one request and prints the seven values the device sends. The discovery example prints name and address of every announced device, in the order of the answers.",
  "every device and history of it, every platform size of the buffer object, every list of discovery answers",
  "all replies of a device, of all lengths, and all points at which the connection is lost",
  ["examples/vendors/yaskawa/mp3300iec/Yaskawa_AssemblyObjectExample.cpp:main,readAssemblyObject,writeAssemblyObject,fillVector,readBuffer", "examples/IdentityObjectExample.cpp:main", "examples/DiscoveryManagerExample.cpp:main"],
  "Each main as a program over a responder; the loops by induction; the identity and discovery examples from C54 and C52.")

P("C104", "Engineering values in the arithmetic of double",
  "In IEEE double arithmetic (nearest, ties to even) the engineering value of a parameter of up to 32 bits is within one part in 2^50 of (actual + offset) * multiplier * base / (divisor * 10^precision), and none of the operations overflows or loses bits near zero. It is exact, and a limit set to it reads back unchanged, when the value is a whole number and the products fit into 53 bits. A user may expect that a limit set to the engineering value of v always reads back as v: but it reads back as v or as the next integer toward zero, never anything else; with multiplier 1, divisor 3 and one decimal the limit set to the value of 11 is 10. With 64-bit types even that is lost: setting the largest value of an object without scaling is undefined.",
  "all integer types of up to 32 bits and all their values, all scaling attributes that are not zero (product of multiplier and base below 2^31), every value of std::pow that is positive (accuracy: right to the last bit), all three limits",
  "2^32 values times 2^80 scaling attributes",
  ["src/ParameterObject.cpp:actualToEngValue,engToActualValue", "src/ParameterObject.h:getEngValue,setEngMinValue,setEngMaxValue,setEngDefaultValue"],
  "The rounding of binary64 as a computable function on rationals, proved to give the nearest number of 53 bits, ties to even, and to be monotone; relative error of each operation at most 2^-53, multiplied out over the seven operations of a round trip; magnitudes of all intermediate results bounded.")

P("C105", "float, double, infinities and NaN in engineering values",
  "With the complete arithmetic of IEEE 754 (infinities, NaN, gradual underflow, float and double): the engineering value of an integer parameter of any width is a number, the one of C104, whenever the divisor reported by the device is not zero; a CipReal or CipLreal is read and written in its IEEE bit pattern, limits of an object without scaling hold the number that was set (the nearest float for CipReal), and with scaling every finite CipReal gives a finite engineering value within one part in 2^49 of the formula (a CipLreal too unless it is tiny or huge). Setting an integer limit stores what C104 says for every double that is a number. A larger stored integer never has a smaller engineering value. The bus voltage reported for a fault of a drive is the number read, current and frequency are the doubles nearest to a hundredth of it. A user may expect that no reply of the device makes an accessor undefined: but a divisor of zero gives NaN or an infinite value, and with a multiplier or base of zero setting any integer limit converts such a value to an integer, which is undefined; so does setting a limit to an infinite value or NaN.",
  "all types of the accessors, all stored bytes, all scaling attributes, all values of float and double, every std::pow(10, n) that is right to the last bit (or a whole number, for setting)",
  "2^64 bit patterns times 2^88 scaling attributes; overflow, underflow, ties and special values",
  ["src/ParameterObject.cpp:actualToEngValue,engToActualValue", "src/ParameterObject.h:getEngValue,getEngMinValue,setEngMinValue,setEngMaxValue,setEngDefaultValue,encodeValue,decodeValue", "src/vendor/ra/powerFlex525/DPIFaultParameter.cpp:processVolts,processCurrent,processFrequency", "src/cip/Types.h:CipReal,CipLreal", "src/utils/Buffer.cpp:operator<<,operator>>"],
  "Rounding with an exponent range as a computable function, proved to give the nearest number of the format, ties to even, infinite exactly from half a unit beyond the largest number; bit patterns decoded and encoded by fields; magnitudes of intermediate results bounded to show that neither overflow nor underflow occurs, or that it does not change the converted integer.")

P("C106", "Upload handlers that use the file object, or throw",
  "A handler of beginUpload may use the file object from which it is called: no call of handleTransfers or beginUpload, at any depth, is undefined if no handler uses its argument or its captured variables after calling SyncState and none uses the object after destroying it. Its argument is the content of the file if the status is success and empty otherwise. SyncState followed by beginUpload in the handler starts the next upload, although handleTransfers returns false. An exception of the handler reaches the caller, and the object is as if the handler had returned. A user may expect that the argument stays valid until the handler returns: but SyncState in the handler destroys it, and the handler itself, and handleTransfers in the handler changes it. A user may expect that beginUpload in the handler starts the next upload: but alone it does nothing. A handler may destroy the object, but a loop that goes on while handleTransfers returns true then uses what is destroyed.",
  "all handlers, as finite sequences of such actions with handlers inside them to any depth; all devices, states of the object and histories",
  "all programs a handler may be, and all answers of the device while it runs",
  ["src/FileObject.cpp:beginUpload,handleTransfers,getState,~FileObject", "src/fileObject/FileObjectState.h:setState,EndUploadHandler", "src/fileObject/FileObjectUploadInProgressState.cpp:transfer", "src/fileObject/FileObjectLoadedState.cpp:initiateUpload", "src/fileObject/FileObjectState.cpp:SyncState"],
  "Handlers as trees of actions, interpreted by recursion; each state object has a number, and a handler that uses what is stored in a state object with another number, or in a destroyed object, is undefined. Each operation is proved to be the operation of C59 to C62 followed by the handler; absence of undefined behaviour by induction on the tree.")

P("C107", "Threads that open connections",
  "If only one thread at a time is inside forwardOpen, whichever managers the threads use, the serial numbers are consecutive and the identifiers are those of calls made one after the other, in every schedule; so two calls within 65535 calls of each other have different serial numbers, and different identifiers. If one thread opens all connections no lock is needed. A user may expect that threads which use different managers need no lock: but managers share counters without protection. Whenever two threads have connections to open some schedule has a data race, and even if reads and writes are atomic two calls can get the same numbers, and one manager, used by one thread, can get the same identifier for two of its connections.",
  "any number of threads, managers and calls; every schedule of the single reads and writes of the counters; all earlier values of the counters",
  "all schedules, which a test cannot choose",
  ["src/ConnectionManager.cpp:forwardOpen"],
  "Threads as machines whose steps are the reads and writes of the counters; invariant by induction over the schedule that relates the counters in the middle of a call to those before it; the expectation is refuted by schedules given for all initial counters.")

P("C108", "Datagrams from anywhere, and managers that share the port",
  "Every datagram that the system gives to the bound socket of a manager is read exactly once, by that manager, in the order of arrival: a handleConnections call that returns has read all that waited and delivered them by the routing rule of C34; if it throws, at a malformed datagram or because the receive listener throws, those after it stay for a later call, and those before it have been delivered. A user may expect that only datagrams of the target count, but the sender makes no difference at all: any history goes the same if the datagrams come from other hosts. So a stranger who knows the identifier supplies input data, and keeps a connection open whose target is silent. Also all managers are bound to the same port, and a datagram given to the socket of one manager never reaches the connection of another, which is then closed for want of data.",
  "every history of a process with any number of managers, of arrivals from any senders in any socket, and of calls that return or throw",
  "all histories of arrivals, all senders, and all choices of the system between sockets of one port",
  ["src/ConnectionManager.cpp:findOrCreateSocket", "src/ConnectionManager.cpp:handleConnections", "src/sockets/UDPBoundSocket.cpp:UDPBoundSocket", "src/sockets/UDPSocket.cpp:Receive", "src/sockets/BaseSocket.cpp:select"],
  "A queue per bound socket around the model of the process; invariants by induction over histories; the independence from senders as a simulation; the expectations are refuted by concrete histories.")

P("C109", "What can be read from the log",
  "The numbers in the messages of the library can be read back: identifiers, serial numbers, sizes, sessions, parameters and numbers of faults as decimal numbers after their labels, the service of a request and the descriptor and type of a parameter as hexadecimal numbers, and the class, object and attribute of a request; all additional statuses of a device, in order; the sizes of what sockets send and receive, and their descriptors. A refused connection is logged as an error exactly when forwardOpen returns a null pointer; a connection that is returned is announced with its identifiers and the address it sends to, and is reported as existing exactly when the returned pointer is dead. forwardClose logs that the pointer was dead exactly when it sends nothing, and a warning exactly when the device does not report success. A connection closed by timeout, data that is not sent because of its size, and a datagram that is handled but reaches no listener always leave a message that the default level shows, naming the connection. A user may expect to read the general status of a device after 'error=0x', but there is the character with that code, and the number read is never the status; and the number of a file object is hexadecimal without saying so, so that it is misread for every file from 10 on. The message that an I/O connection is opened does not mean that there is one.",
  "all values in the messages; all managers in reachable states, replies, datagrams, ticks and errors of sockets",
  "all numbers, replies and datagrams; a test would look at one text",
  ["src/utils/Logger.h:Logger", "src/cip/MessageRouterResponse.cpp:logGeneralAndAdditionalStatus", "src/cip/GeneralStatusCodes.h:GeneralStatusCodes", "src/ConnectionManager.cpp:forwardOpen,forwardClose,findOrCreateSocket", "src/IOConnection.cpp:notifyTick,notifyReceiveData", "src/MessageRouter.cpp:sendRequest", "src/ParameterObject.cpp:ParameterObject", "src/SessionInfo.cpp:SessionInfo,~SessionInfo", "src/fileObject/FileObjectState.cpp:logWithStateName", "src/vendor/ra/powerFlex525/DPIFaultManager.cpp:handleFaultParameters"],
  "The insertions into the stream with the flag std::hex as a fold over what is inserted; a separate reader that looks for a label and reads digits; reading back by induction on the number of digits. Which messages are written is a function beside each modelled operation, related to its result.")

P("C110", "Hosts as texts",
  "On a system with the GNU C library, the address of an end point made of a host and a port is determined by the text of the host: one to four numbers, written as in C, separated by dots, the last of which fills the bytes that are left, with nothing or white space after them. The usual text of an address gives that address, and the host of an end point made of an address, as those of discovered devices are, gives the same address and port again. A user may expect an error for any other text: but a name of a host, or any text without such numbers, gives the address 0.0.0.0 without an exception. A user may expect that zeros in front of a number do not matter: but an address written with three digits for each number is the one intended exactly if each number is less than 8 or at least 100.",
  "all texts and ports; all addresses",
  "all texts; a test tries a few",
  ["src/sockets/EndPoint.cpp:EndPoint"],
  "inet_aton as a function on lists of characters, proved to agree with a grammar of numbers and dots (soundness by induction on the places left, completeness by induction on the derivation); the rest from the grammar.")

P("C111", "Threads that log",
  "If level and appender are set before the threads start, threads that use the library log without a data race in whatever order their steps come, and no message is lost, doubled or changed: the appender is given the messages of each thread that pass the level, whole and in the order of the thread. If a lock is held while a message is written, the console shows whole lines, level and appender can be set at any time, and what is shown is what would be shown if the threads had acted one after the other. A user may expect whole lines without a lock: but whenever two threads have messages to show, their lines can be mixed, character by character. A user may expect to change the level or the appender while threads log: but that is a data race, and the appender can be used after its destruction.",
  "any number of threads and messages, all levels and texts, every schedule",
  "all schedules, which a test cannot choose",
  ["src/utils/Logger.cpp:~Logger,setLogLevel,setAppender,print", "src/utils/Logger.h:Logger"],
  "Threads as machines whose steps are accesses to the static members, the virtual call, and single characters on the console; invariants by induction over the schedule; the expectations are refuted by schedules given for all messages.")

P("C112", "UDP sockets used directly",
  "A program may use the UDP socket class itself. Its receiving calls take the datagrams one by one in the order of arrival; each call returns exactly as many bytes as it asked for, the beginning of the datagram and then zeros, and what is cut off is lost; an error of the system throws and leaves the end point as it was. After ReceiveFrom a reply goes to the address and port of the sender, whether the socket is made of the end point or of its host and port, whatever is received without sender in between. A user may expect to see how long a datagram is: but two datagrams are told apart only if they differ, with zeros after their ends, in the bytes asked for.",
  "all queues of datagrams with senders and errors, all sizes, all programs of such calls",
  "all datagrams, sizes and orders of calls",
  ["src/sockets/UDPSocket.cpp:Receive,ReceiveFrom,Send,UDPSocket", "src/sockets/EndPoint.cpp:EndPoint"],
  "A queue of arrivals and a variable for the end point; induction over the program; the reply by host and port from C110.")

P("C113", "Listeners that are set and replaced",
  "Listeners of an I/O connection can be set at any time, also by a listener that is running. Each event calls the listener that was set last for it, by the program or by a listener, and none other; one that was never set does nothing. What the send listener leaves in the output data, by its argument or by setDataToSend, is sent in this very frame, if it fits the size, and stays for the next. Nothing else of the connection depends on this: every history with changing listeners has the events of one with fixed listeners. A step is defined unless a function uses what it has captured after it has replaced itself. A user may expect that a listener can replace itself and go on: but if it then uses what it has captured, that is undefined behaviour whenever it is called. A user may expect that an empty function as listener means none: but each event for it throws bad_function_call to the program, and with an empty send listener nothing is sent until another is set.",
  "all histories of ticks, datagrams, calls of setters, and functions of the user that look at captured variables, assign, set data, set listeners and throw",
  "all orders in which listeners are set and called, also by each other",
  ["src/IOConnection.cpp:IOConnection,setReceiveDataListener,setSendDataListener,setCloseListener,setDataToSend,notifyTick,notifyReceiveData", "src/IOConnection.h:SendDataHandle,ReceiveDataHandle,CloseHandle"],
  "The connection with its three listeners and a count of replacements, by which a destroyed function is told from a live one; induction over functions and histories; a refinement to the model with fixed listeners.")

P("C114", "Copies of a connection manager",
  "A connection manager can be copied and assigned, and a move does the same. A manager that made the socket it uses, or that has none yet, behaves in every call as if nothing had been copied, and destroying other managers does not affect how it handles connections. What happens to a connection that several managers share is one history of one object, which exists as long as the program has a strong pointer to it or some manager has it. A user may expect that a copy is as good as the original, as when a vector of managers grows: but if the manager that made the socket was destroyed, the first datagram of any connection is undefined behaviour. A user may expect that connections opened through a copy receive data: but if the copy uses the socket of the original and never made one, they never do, whatever arrives and whatever is done afterwards, unless something is assigned to a manager that made a socket. An assignment sends nothing and calls nothing, and a connection that only the manager assigned to had is gone. A user may expect that managers can be swapped or sorted: but after a swap of two managers that made their sockets, serving one of them gives data to none of the connections it has now, unless it had it before. A user may expect that a connection closed with one manager is closed: but every other manager that has it keeps it alive and goes on sending for it. A user may expect that the close listener is called once: but it is called once for every manager that has the connection.",
  "all histories in which managers are constructed, copied, assigned, destroyed and called in any order, with everything that can arrive",
  "all orders of copies, assignments, destructions and calls",
  ["src/ConnectionManager.h:ConnectionManager", "src/ConnectionManager.cpp:findOrCreateSocket,handleConnections,forwardClose"],
  "A process with a list of managers that share connection objects and, by the manager whose this was captured, the handler of the socket; invariants by induction over histories: who made each socket, and which connections no handler can find.")

P("C115", "Copies of a session",
  "A session can be copied, and a move copies it. As long as no object of a connection is used or destroyed after another one of that connection was destroyed, all copies are the same session: a request of any of them is a request with the registered handle on that connection, and nothing of another session is sent there. Destroying one ends that session, and closes that descriptor and no other. A user may expect that a copy is still good after the original was destroyed, as when a vector of sessions grows or a session is returned through a copy: but its next request throws, and no request of it ever reaches its device again. A user may expect that it does no harm either: but when the number of the closed descriptor was given out again, the requests of the copy go, with the old handle, to the other device, and destroying the copy ends a session at the other device and closes the connection of the other session, which was never destroyed, or closes a file of the program.",
  "all histories in which sessions are constructed, copied, destroyed and used, and other descriptors opened and closed, in any order, with everything that devices can send",
  "all orders of copies, destructions and requests, and all reuses of descriptors",
  ["src/SessionInfo.h:SessionInfo", "src/SessionInfo.cpp:~SessionInfo,sendAndReceive", "src/sockets/TCPSocket.cpp:~TCPSocket,Send,Receive", "src/sockets/BaseSocket.cpp:Shutdown,Close"],
  "A process with a table of descriptors, given out lowest first, the connections ever made and the session objects, each with a descriptor number and a handle; invariants by induction over histories: which connection each descriptor stands for, and what was sent on each.")

P("C116", "Data that are lost, repeated or out of order",
  "While a connection is served and stays open, its receive listener is called once for each datagram of the target that arrives, in the order of arrival, with the header, the sequence count and the data that the target sent in it: datagrams that are lost are not announced, and none is held back, sorted or dropped. If the connection has a sequence count, a listener that drops what is not newer than the last it kept is left with exactly the data that were the newest when they came, each once, as long as each number is within 2^15 of the newest before it. A user may expect that the library hands over only newer data: but old data that arrive late, or again, are handed over as the latest, and the 32-bit sequence number of the datagrams makes no difference to anything. A user may expect that a connection whose target has stopped is closed: but one old datagram that keeps arriving keeps it open for ever.",
  "all histories of a manager, all targets and what they send, all losses, repetitions and orders of datagrams, with datagrams for other connections in between",
  "all orders and losses, and any number of datagrams",
  ["src/IOConnection.cpp:notifyReceiveData", "src/ConnectionManager.cpp:findOrCreateSocket,handleConnections"],
  "A target numbers its datagrams; induction over the calls with the routing rule of C34 and the decoding of C36; the filter by arithmetic of 16-bit differences; replays by induction over the number of calls.")

P("C117", "Byte order of the host",
  "Whatever the byte order of the host, the system is given the port and the address that the program asked for, and the library takes port and address right from what the system reports. On a host whose address family has two bytes, an end point that was written to a buffer is read back the same. On a little-endian host the socket address item that is written is the one of the specification, and one of the specification is read with its port and its address. A user may expect this of a big-endian host too: but there the item is written with family, port and address each the wrong way round, and a correct one of a device is taken for the port with swapped bytes at the reversed address, so that data go elsewhere, except when port and address read the same backwards. A user may expect that an end point read from a buffer can be used with a socket on systems with a one-byte address family, as macOS: but it has family 0 even if the same host wrote it, and on a little-endian one whatever was in the buffer.",
  "all ports, addresses, both byte orders, both layouts of addresses, and all buffers around the item",
  "all ports and addresses, on hosts on which the tests are not run",
  ["src/utils/Buffer.cpp:operator<<(EndPoint),operator>>(EndPoint)", "src/sockets/EndPoint.cpp:EndPoint"],
  "The end points with the byte order and the layout of addresses as parameters; memory images of integers as lists of bytes; arithmetic of bytes. The rest of the model is the instance of Linux on a little-endian host.")

P("C118", "Assignment of sessions",
  "A session can be assigned to another one. That sends nothing and closes nothing; from then on a request of the session assigned to is that of the other one, and all further sessions are as before. To assign a session to itself or to a copy of it changes nothing. A user may expect that the session which is assigned to is ended, as by a type that owns its connection: but if it was the only object of its connection, then whatever the program does afterwards, the device is never told that the session has ended, and the descriptor stays open until the program ends. A user may expect to connect again with session = SessionInfo(host, port): but the new session is ended and its connection closed as soon as the temporary is destroyed, and every request of the session that was assigned to throws.",
  "all histories in which sessions are constructed, copied, assigned, destroyed and used, and other descriptors opened and closed, in any order, with everything that devices can send",
  "all that a program does after the assignment, and all histories before it",
  ["src/SessionInfo.h:SessionInfo", "src/SessionInfo.cpp:~SessionInfo,sendAndReceive", "src/sockets/TCPSocket.cpp:~TCPSocket", "src/sockets/BaseSocket.h:BaseSocket"],
  "The process of C115 with assignment; a connection that no object and no open file has the descriptor of stays so under every operation, by induction over what is done afterwards.")

P("C119", "How much a peer can make the library hold",
  "Whatever a device sends: a packet that a session returns has at most 65535 bytes of data; a reply of the message router, with additional status and additional items, has at most 65515; a request that returns or throws has taken at most 65559 bytes of what arrived; a receive listener is given at most 8182 bytes; one call of handleTransfers adds at most 65511 bytes to what the file object holds, and what the handler is given is held by the object and shorter than 4 GiB; a discovery returns at most 119 devices for each datagram it received. A user may expect that an upload is bounded by the size that was announced for the file: but a device that has always one more packet makes the object hold one more packet with each call, each call returns true, and the handler is told nothing, for any announced size and any number of calls. A user may expect that a discovery lists each device once: but one device that answers n times is listed n times, for any n.",
  "all data of the device in all pieces, all requests, all histories of a manager, all numbers of calls and of answers, all ways in which reads outside of a buffer may go",
  "all that a device may send, and any number of packets",
  ["src/SessionInfo.cpp:sendAndReceive", "src/MessageRouter.cpp:sendRequest", "src/ConnectionManager.cpp:findOrCreateSocket,handleConnections", "src/fileObject/FileObjectUploadInProgressState.cpp:transfer", "src/DiscoveryManager.cpp:discover"],
  "Each reader is shown to move on by a fixed number of bytes; sizes by arithmetic along the parsers and by induction over items, histories and answers; the unbounded cases by induction over the number of calls against one explicit device.")

P("C120", "When memory runs out: sessions and file objects",
  "While there is memory requests, uploads and the ends of sessions do what they do without this question. When there is none, calls throw std::bad_alloc. A request on a session that fails before it was sent has done nothing, and one that fails after the whole reply was taken leaves the session in step: later requests get their own replies. If beginUpload, handleTransfers or SyncState throws, the file object is as before, with one exception; if the device sends a packet again when asked again, a program that calls handleTransfers again whenever it threw gets the whole file, exactly once, after at most as many calls as there are packets and failures. A user may expect a session to be usable after the exception: but if memory runs out after the request was sent, every later request gets the reply to the one before; if it runs out after the header of the reply was taken, the data of the reply is taken for the next reply, so that whoever determines the data determines what the next request returns. A user may expect objects to be destroyed without memory: but the end of a session and of a file object that has begun an upload terminate the process. A user may expect that a file is reported as uploaded only if it was sent: but if memory runs out when a last packet of the wrong size has arrived, and the program tries again, the packet is taken twice, and the handler is called with success and a file that the device does not have.",
  "all places at which memory can run out, any number of times, all requests, replies, segmentations of the stream, devices, files and numbers of calls",
  "tests do not make allocations fail, and never at each place of all histories",
  ["src/SessionInfo.cpp:sendAndReceive,~SessionInfo", "src/sockets/TCPSocket.cpp:Receive", "src/MessageRouter.cpp:sendRequest", "src/fileObject/FileObjectUploadInProgressState.cpp:transfer", "src/fileObject/FileObjectLoadedState.cpp:initiateUpload", "src/fileObject/FileObjectState.cpp:SyncState,~FileObjectState,getStateName"],
  "The functions again, with an explicit list that tells which allocations fail; simulation by the functions without allocations when none fails; the state at each place where one fails; the upload by an invariant on the packets taken and sent, by induction over the number of calls.")

P("C121", "When memory runs out: connections",
  "Wherever memory is missing in a call to a connection manager, the call is what it is with enough memory, or it throws std::bad_alloc. A call that throws has opened, closed and removed no connection; the connections the manager knows, the pointers of the user and the negotiated values are as before, and at most one bound socket is new; so in all histories each connection the manager knows exists and is known under its identifier. forwardClose, setDataToSend and handleConnections that fail at their first allocation have done nothing and can be called again; forwardOpen that fails at the request has sent nothing. A datagram for which there is no memory is lost, as if the receive call had failed. Nothing is sent by a tick that fails, and the numbers of a connection's datagrams always go forward: by the calls of the send listener, and at most one more for each tick that failed before the listener was called. A user may expect that the two numbers of a datagram stay equal: but they differ after memory was missing for an address item. A user may expect to be told once that a connection is closed: but if memory is missing to note that it is to be removed, the next call tells it again. A user may expect that a connection which could not be opened is not open: but if memory is missing at any place after the reply, the device has it, the manager does not know it, and the program has nothing to close it with.",
  "all histories of a manager, with any place in any call at which memory is missing, any number of times, all replies, datagrams, clock readings and listeners",
  "tests do not make allocations fail, and never at each place of all histories",
  ["src/ConnectionManager.cpp:forwardOpen,forwardClose,handleConnections,findOrCreateSocket", "src/IOConnection.cpp:notifyTick,notifyReceiveData,setDataToSend"],
  "The operations again with the place of the failing allocation; each is the operation with enough memory or ends with the exception, by cases; the effect on connection objects is the replay of the events, by induction over histories; the numbers by bounds on how far each step advances them; concrete histories for what fails.")

P("C122", "When memory runs out: discovery and objects",
  "Wherever memory is missing in a discovery, in the construction of an identity, parameter or fault object, in updateValue, in a request of a Yaskawa drive or in handleFaultParameters, the call is what it is with enough memory, or it throws std::bad_alloc. A discovery that throws has closed its socket, and has sent its request once or not at all. A constructor that throws has made some of its requests in their order. updateValue that throws leaves the value as it was. handleFaultParameters that throws has told the listener the first of the faults that it would have told; no fault is lost: a drive still has all of its faults, or all of them were told before the drive was told to forget them; a program that calls it again whenever it threw gets all faults, in order, in the last of the calls. A user may expect to be told each fault once: but the first faults are told again by the next call. A user may expect a discovery to return the devices that have answered: but they are lost if memory is missing afterwards.",
  "all places at which memory can be missing, any number of times, all devices, replies, datagrams, errors of sockets and lists of faults",
  "tests do not make allocations fail, and never at each place of all calls",
  ["src/DiscoveryManager.cpp:discover,makeSocket", "src/sockets/UDPSocket.cpp:Receive", "src/IdentityObject.cpp:IdentityObject", "src/ParameterObject.cpp:ParameterObject,updateValue", "src/vendor/ra/powerFlex525/DPIFaultManager.cpp:handleFaultParameters,handleFaultObjects", "src/vendor/yaskawa/mp3300iec/Yaskawa_MessageRouter.cpp:sendRequest"],
  "The functions again, with an explicit list that tells which allocations fail; a relation between programs with and without allocations that is kept by sequencing, branching and requests, so that each function is related by its structure; the faults by induction over the queue of the drive and the number of calls; concrete runs for what fails.")

P("C123", "When memory runs out: the log",
  "Wherever memory is missing while a message of the library is written, at most one text is handed to the appender in force, and it is the first part of the text that it would be with enough memory; level, appender and other loggers are as before. With enough memory the message is that of C109. A message that the level hides is written to no one, and it throws std::bad_alloc only if there is no memory for a text that is made for it; so with INFO messages hidden, a request is that of C120, or throws before it is sent. Memory that is missing for the insertions does not end the process. A user may expect that a call that finds no memory throws: but for every message of the library that is shown, if there is no memory for the copy of its text, the process ends; so does the first message on the console if there is none for the names of the levels; at the default level this is so for every request. A user may expect that the numbers in the log are right: but a number can be cut after any of its digits, with nothing to tell.",
  "all messages of the library, all places at which memory can be missing, all states of the log, all requests and sessions",
  "tests do not make allocations fail, and never at each place of all messages",
  ["src/utils/Logger.cpp:~Logger,print", "src/utils/Logger.h:operator<<", "src/MessageRouter.cpp:sendRequest"],
  "The stream with its bad bit and the place at which each insertion finds no memory; a bad stream keeps its text, and the text is a prefix, by induction over the insertions; the copy of the text and the table of names in the destructor, which is noexcept; that each message is longer than the room of a short string, by cases over the messages.")

P("C124", "The log and the errors of sockets",
  "The messages of sockets are hidden at the default level, and those about what is sent and received at all levels but TRACE. With any level but TRACE, and with any appender that leaves errno alone, a discovery returns or throws what it does without the log. The messages of a discovery are the opened socket, the request of 24 bytes, one for each answer with its size, one for the call that failed, and the closed socket. A receive call of a TCP socket never depends on the log; the sizes in its messages add up to the bytes it has taken, and it warns exactly when the peer has closed the connection before all bytes were there, telling how many there were. A user may expect that the appender cannot change what calls do. But a failing receive call of a UDP socket reads errno after its message: at level TRACE it throws the code that the appender has left. So whatever devices have answered, a discovery throws instead of returning them if the appender changes the errno of the timeout that ends it; and an error of the socket is hidden if the appender leaves the code of a timeout. The code of a request that is sent in part is the one that an earlier call has left.",
  "all levels, all appenders that do not throw and all changes they make to errno, all answers, errors and streams",
  "all appenders and all errors; a test has one appender that leaves errno alone",
  ["src/sockets/UDPSocket.cpp:Receive,Send,UDPSocket,~UDPSocket", "src/sockets/TCPSocket.cpp:Receive", "src/DiscoveryManager.cpp:discover", "src/utils/Logger.cpp:~Logger", "src/sockets/BaseSocket.cpp:getLastError"],
  "The calls again with the state of the log and errno, and the appender as a function on errno; the discovery with the log is the one without it on mapped errors, by induction over the receive results; TCP by induction over the events of the network.")

P("C125", "The log of file objects",
  "In all histories of a file object the log tells its states: each new state starts before the one it replaces stops, the last one is the state that the object reports, and after the destruction each has stopped as often as it has started, also when the constructor throws. The messages about requests are the requests sent, all and in order. There is one ERROR for each call of a handler with a failure, in order, and it tells that failure. An object whose file does not exist or is empty sends nothing, calls no handler, and warns. Synchronization warns exactly when the device says that an upload is going on. Each packet is told with its type, whatever becomes of it. A user may expect that an upload that does not succeed leaves an ERROR or a call of the handler: but an upload begun while another is going on is dropped with an INFO message, handleTransfers of a loaded file says nothing, and a call that throws leaves neither. A user may expect to learn why a device refuses to tell the state of a file: but the status is told neither in the log nor in the exception.",
  "all histories of calls to a file object, all devices, replies and exceptions, all files",
  "all histories and devices; tests look at few messages",
  ["src/FileObject.cpp:FileObject,beginUpload,handleTransfers", "src/fileObject/FileObjectState.cpp:logWithStateName,getStateName,SyncState", "src/fileObject/FileObjectState.h:setState", "src/fileObject/FileObjectUploadInProgressState.cpp:transfer,initiateUpload", "src/fileObject/FileObjectLoadedState.cpp:initiateUpload,transfer"],
  "The functions of the file object again, with the messages they write; each is the one without messages when the messages are erased; an invariant that relates the messages to the state, the requests and the calls of handlers, by induction over the histories.")

P("C126", "Reading the open connections off the log",
"From the messages 'Open IO connection', 'exists', 'Close connection' and 'timed out' a reader can tell which connections a manager has open, "
"at any time of any history of calls, and what hasOpenConnections answers; the default log level shows all that is needed. This holds if the "
"devices repeat no serial number and no call throws after such a message. Without this it fails: a forwardOpen without a socket, a forwardClose "
"whose request throws, a listener that throws when a connection times out, and two connections with one serial number mislead the reader; so "
"does a log level below INFO.",
"all histories of calls of a manager with any replies, arrivals, clocks and listeners, cut off at any call; all log levels",
"The messages are spread over calls and handlers; whether they add up to the state of the manager is a question about all histories.",
["src/ConnectionManager.cpp: forwardOpen, forwardClose, handleConnections, hasOpenConnections", "src/IOConnection.cpp: notifyTick, notifyReceiveData",
 "src/utils/Logger.h: Logger"],
"`Model/ManagerLog` gives the messages of each call of a history, `Spec/ManagerLog` what a reader makes of them. An invariant says that the reader's "
"list is the table of the manager, and that serial numbers in it differ; by induction over histories, with lemmas about the walk over sockets and "
"ticks.")

P("C127","Threads that use one connection",
"While one thread calls handleConnections, which sends the output data of a connection when it is due, another may call setDataToSend with new data "
"of any size. If the program puts a lock around the calls, the calls behave as if one thread made them in the order in which they ended: what "
"is sent is always exactly the data set last, there is no data race, and no one uses bytes that have moved. The library itself takes no lock. Without one, if all data have one size, each byte that is sent is a byte "
"that stood at that place in the first data or in data of some call, and the size is kept; but there is a data race in some schedule whenever data are about to be sent, and "
"each mixture of old and new bytes is sent in some schedule. With data of another size there is a schedule in which the sending thread goes on with bytes that have moved.",
"All connections, data, programs of any number of threads, and schedules of the reads and writes of single bytes; all masks of a mixture",
"A race shows in few schedules, and a test sees those that the machine happens to take; that no schedule of locked calls tears data is a claim about all of them.",
["src/IOConnection.cpp: setDataToSend, notifyTick, notifyReceiveData"],
"`Model/DataThreads` splits the assignment and the copy of the data into steps of one byte. With a lock: an invariant that relates the state to a "
"one-thread run of the ended calls. Without: an invariant over each byte; for each mask a schedule is built by induction over the places.")

P("C128", "The Windows build",
"What users rely on holds of the Windows build too: TCP and bound UDP sockets are opened and closed without leaks and under the right number, the timeout of connecting is kept, discovery finds "
"the same devices as on unix and takes as long, the data of connections are handled in the same way, and errors have the text of the system without line ends. "
"This holds if numbers of sockets are less than 2^31 and no datagram is longer than the buffer (504 bytes for discovery, 8192 for connections) and "
"the receive timeout is not negative and less than 2^32 ms and other times to wait are less than 2^31 s and a manager has at most 64 sockets. It fails otherwise: sockets after the 64th are never read; a time to wait of 2^31 s or more, less than 2^32 s, becomes less than a second; a socket with bit 31 set is taken for a failure and leaks; one "
"datagram that is too long, from whomever, ends discovery with an exception that loses the devices found, or ends handleConnections before any connection "
"has been looked at; and the timeout of connecting has no effect, because the socket is left blocking.",
"All results of the calls of Winsock, all socket numbers, timeouts, arrivals of datagrams, states of a manager, and texts of errors",
"The tests do not run on Windows, and these are claims about all results of the system and all datagrams of strangers.",
["src/sockets/TCPSocket.cpp: TCPSocket, ~TCPSocket", "src/sockets/BaseSocket.cpp: Close, Shutdown, setRecvTimeout, makePortableInterval", "src/sockets/UDPBoundSocket.cpp: UDPBoundSocket", "src/sockets/Platform.cpp: win32ErrorCategory",
 "src/sockets/Platform.h: EIPSCANNER_SOCKET_ERROR", "src/DiscoveryManager.h: DISCOVERY_SOCKET_RECEIVE_END_ERROR_CODE", "src/sockets/UDPSocket.cpp: ReceiveFrom"],
"`Model/Windows` gives the functions without their unix parts, over results of Winsock. Sockets by running the constructor in all cases; discovery and connections "
"by showing that they are those of the unix model on what Winsock makes of the arrivals, with the code of the end of waiting exchanged.")

P("C129", "Threads that share a connection manager",
"Several threads use one connection manager: one calls handleConnections again and again, others open and close connections. If the program puts a lock around each call, then "
"in every schedule the calls give what they would give one after the other in the order in which they ended: each handleConnections ticks exactly the open connections, in the order "
"of identifiers, and removes those that ask for it; a connection is opened unless its identifier is taken; a close removes exactly the connection it was given, or finds it "
"closed already. There is no data race, no iterator that leads nowhere, and the assertion in forwardClose holds. The library takes no lock. Without one there is a data race "
"in some schedule whenever one thread handles and another opens; undefined behaviour when one closes the connection that another is about to tick; a failed "
"assertion when two close one connection; and a close can remove a connection that was opened later, which no call was told to close.",
"All tables, any number of threads with any programs, all replies and timeouts, all schedules of the accesses of the table",
"All schedules, which a test cannot choose.",
["src/ConnectionManager.cpp: forwardOpen, forwardClose, handleConnections"],
"`Model/ManagerThreads` splits the calls at the accesses of the map. With a lock: an invariant that relates the middle of a call to the run of the ended calls by one thread. Without: a "
"schedule is given for every table.")

P("C130", "Peers that are gone do not kill the program",
"Sending to a peer that has closed the connection never kills the program by SIGPIPE, whatever sockets are opened and destroyed and whenever peers go, on every unix system that defines "
"MSG_NOSIGNAL or SO_NOSIGPIPE; where neither is defined, any such send kills it. The program does not learn from the send that the peer is gone: it returns as if all had been sent. "
"Open descriptors without an object are exactly as many as the constructors of which setsockopt(SO_NOSIGPIPE) failed: each of those throws and leaks its descriptor.",
"All builds with or without the two macros, all histories of opening, sending, closing by peers and destroying, all data",
"The two macros are a matter of the system on which it is built, and when peers go is a matter of all histories.",
["src/sockets/TCPSocket.cpp: TCPSocket, Send", "src/sockets/UDPSocket.cpp: UDPSocket, Send"],
"`Model/BrokenPipe`: a process with sockets, over what the documentation says of the signal; an invariant that every object has an open socket with the option if the build has it, and a count of "
"descriptors, by induction over the history.")
