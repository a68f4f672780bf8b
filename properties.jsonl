{"id": "C01", "title": "Typed buffer round trip", "statement": "Whatever sequence of values (8/16/32/64-bit integers, float and double bit patterns, byte and word vectors, revisions, CIP strings whose length fits their prefix, socket addresses) is written with operator<< into a Buffer, reading the same types back in the same order with operator>> yields exactly the same values, reads exactly the bytes written, never reads out of bounds and leaves the buffer valid. Writes and reads of one buffer may be mixed: as long as there are unread values, a buffer is a queue of typed values.", "quantifier": "every finite sequence of typed values, every interleaving of writes and reads, every initial content already in the buffer, every content following it", "why_tests_cant": "tests round-trip a few literals of each type; the law ranges over every value and every mixed sequence", "anchors": ["src/utils/Buffer.cpp:operator<<,operator>>", "src/utils/Buffer.h:operator<<(CipBaseString),operator>>(CipBaseString)"]}
{"id": "C02", "title": "Little-endian wire encoding", "statement": "Writing an n-byte integer appends exactly n bytes, the base-256 digits of its unsigned value, least significant first, and leaves all earlier bytes unchanged.", "quantifier": "every width 1,2,4,8, every value, every prior buffer content", "why_tests_cant": "a test compares a handful of encodings; the digit law must hold for all 2^64 values", "anchors": ["src/utils/Buffer.cpp:operator<<"]}
{"id": "C03", "title": "Reads are defined exactly when enough bytes remain", "statement": "A typed read is free of undefined behaviour if and only if the buffer still holds at least as many bytes as the type needs; a defined read advances by exactly that many bytes and keeps isValid() true; consequently isValid() can be false only after an out-of-bounds read has already happened.", "quantifier": "every buffer, position and sequence of reads", "why_tests_cant": "an out-of-bounds read often looks harmless in a test run; absence must be shown for all lengths", "anchors": ["src/utils/Buffer.cpp:operator>>", "src/utils/Buffer.h:isValid,empty"]}
{"id": "C04", "title": "CIP strings survive encoding exactly when their length fits", "statement": "Encoding a CIP string and decoding it gives back the same text if and only if its length is below 2^8 (short strings) or 2^16 (long strings); at or above that the length prefix is silently reduced modulo 2^8/2^16 while all characters are still written.", "quantifier": "every byte string, both prefix widths", "why_tests_cant": "the interesting strings are longer than any test uses", "anchors": ["src/cip/CipString.h:CipBaseString", "src/utils/Buffer.h:operator<<(CipBaseString)"]}
{"id": "C05", "title": "Socket addresses travel in network byte order", "statement": "Writing an EndPoint appends 16 bytes: family, port and IPv4 address most significant byte first, then eight zero bytes; reading them back gives the same family, port and address.", "quantifier": "every family, port and address value, on a little-endian host", "why_tests_cant": "tests use one address; byte order mistakes hide when bytes coincide", "anchors": ["src/utils/Buffer.cpp:operator<<(EndPoint),operator>>(EndPoint)", "src/sockets/EndPoint.cpp"]}
{"id": "C06", "title": "Encapsulation packets survive the wire", "statement": "A packet whose payload is set through setData, packed and expanded again, is equal in command, session handle, status, options, sender context and payload if and only if the payload is at most 65535 bytes (with an 8-byte context); the packed bytes are the 24-byte header of the EtherNet/IP layout followed by the payload.", "quantifier": "every command, handle, status, options, context and payload", "why_tests_cant": "payload sizes around 2^16 and all header values cannot be enumerated", "anchors": ["src/eip/EncapsPacket.cpp:pack,expand,setData"]}
{"id": "C07", "title": "Encapsulation decoding is total and exact", "statement": "expand on any byte string has no undefined behaviour: it throws exactly when the string is shorter than 24 bytes or its length field differs from the number of payload bytes, and otherwise packing the result reproduces the input byte for byte.", "quantifier": "every byte string", "why_tests_cant": "malformed inputs are unbounded; tests try two", "anchors": ["src/eip/EncapsPacket.cpp:expand"]}
{"id": "C08", "title": "Common packets survive the wire", "statement": "A common packet packed and expanded again gives the same list of items (type and data, in order) whenever it has fewer than 65536 items each with at most 65535 bytes of data; outside those limits counts or lengths are silently truncated.", "quantifier": "every list of items", "why_tests_cant": "the limits and the number of items are unbounded", "anchors": ["src/eip/CommonPacket.cpp:pack,expand", "src/eip/CommonPacketItem.cpp:pack"]}
{"id": "C09", "title": "Truncated common packets are never accepted as complete items", "statement": "Expanding a byte string that holds an item count but ends in the middle of an item never returns normally: every such input makes the decoder read past the end of its buffer (undefined behaviour), and if those reads happen to return arbitrary bytes the decoder throws; the decoder reports an error only after such an out-of-bounds read.", "quantifier": "every byte string and every possible content of memory after the buffer", "why_tests_cant": "depends on memory contents after the allocation, which a test cannot vary", "anchors": ["src/eip/CommonPacket.cpp:expand"]}
{"id": "C10", "title": "Session commands have the standard layout", "statement": "The packets made for RegisterSession, UnRegisterSession, SendRRData and ListIdentity carry the right command code, session handle, zero status/options/context and the payload bytes of the EtherNet/IP specification, for every handle, timeout and data.", "quantifier": "every session handle, timeout and payload", "why_tests_cant": "quantified over all handles and payloads", "anchors": ["src/eip/EncapsPacketFactory.cpp", "src/eip/CommonPacketItemFactory.cpp"]}
{"id": "C11", "title": "Padded EPATH layout and declared size", "statement": "The packed form of a path made by a public constructor with at least a class ID is the sequence of its logical segments (class, instance, attribute) in order, and its declared size in words is exactly half of its packed length, in both 8-bit and 16-bit mode.", "quantifier": "every path of one, two or three IDs and both segment modes", "why_tests_cant": "all 2^48 ID combinations and both modes", "anchors": ["src/cip/EPath.cpp:packPaddedPath,getSizeInWords"]}
{"id": "C12", "title": "EPATH round trip", "statement": "Packing a path and expanding it gives back an equal path exactly when every ID present is non-zero and, in 8-bit mode, below 256; in particular class-level paths (instance 0) do not survive.", "quantifier": "every path and both modes", "why_tests_cant": "the failing inputs are the zero IDs a test author does not think of", "anchors": ["src/cip/EPath.cpp:packPaddedPath,expandPaddedPath"]}
{"id": "C13", "title": "EPATH decoding accepts exactly sequences of known segments", "statement": "Expanding a byte string returns normally only if the string is a concatenation of complete logical segments of the six known kinds; the resulting IDs are those of the last segment of each kind; an unknown segment throws.", "quantifier": "every byte string and every content of memory after it", "why_tests_cant": "unbounded malformed inputs", "anchors": ["src/cip/EPath.cpp:expandPaddedPath"]}
{"id": "C14", "title": "Message router requests decode uniquely", "statement": "The packed request is service code, path size in words, path, data; a receiver that reads the size byte recovers service, path bytes and data exactly, so two different requests never have the same bytes (16-bit mode, non-empty path).", "quantifier": "every service, path of 1..3 IDs and data", "why_tests_cant": "injectivity is a statement about pairs of inputs", "anchors": ["src/cip/MessageRouterRequest.cpp:pack"]}
{"id": "C15", "title": "Message router response decoding is total and exact", "statement": "Expanding any byte string has no undefined behaviour: it throws exactly when fewer than 4 bytes are present or fewer than twice the additional-status count follow; otherwise service, status, additional status words and data are exactly the corresponding bytes and none is lost.", "quantifier": "every byte string", "why_tests_cant": "malformed replies are unbounded", "anchors": ["src/cip/MessageRouterResponse.cpp:expand"]}
{"id": "C16", "title": "Failed decoding is not all-or-nothing", "statement": "When expand of an encapsulation packet or router response throws, the object keeps its old payload but the header fields read before the check have already been replaced.", "quantifier": "every object state and every rejected input", "why_tests_cant": "exception safety concerns every failing input", "anchors": ["src/eip/EncapsPacket.cpp:expand", "src/cip/MessageRouterResponse.cpp:expand"]}
{"id": "C17", "title": "Connection parameter builder fields are independent", "statement": "Starting from an empty builder, setting owner, type, priority, fixed/variable and size in any order, each at most once, gives a word from which every getter returns the value that was set; a size above the field width is reduced modulo the width.", "quantifier": "every combination of values, every order of setters, both word widths", "why_tests_cant": "orders and values multiply beyond enumeration", "anchors": ["src/cip/connectionManager/NetworkConnectionParams.cpp"]}
{"id": "C18", "title": "Connection parameter setters accumulate", "statement": "Setting a field twice leaves the bitwise OR of the two values, not the second one; the word after any sequence of setter calls is the OR of the individual contributions.", "quantifier": "every sequence of setter calls", "why_tests_cant": "histories of calls", "anchors": ["src/cip/connectionManager/NetworkConnectionParams.cpp"]}
{"id": "C19", "title": "Forward open, large forward open and forward close layout", "statement": "The request bytes contain every field of the connection parameters at its specified offset, the connection path last, total length 36 (or 40 for large) plus the path, and forward close 12 plus the path; the internal length assertion never fires.", "quantifier": "every parameter structure and path", "why_tests_cant": "field offsets must hold for all values", "anchors": ["src/cip/connectionManager/ForwardOpenRequest.cpp:pack", "src/cip/connectionManager/LargeForwardOpenRequest.cpp:pack", "src/cip/connectionManager/ForwardCloseRequest.cpp:pack"]}
{"id": "C20", "title": "Forward open replies are decoded exactly", "statement": "A reply carrying at least 26 bytes plus twice the application reply size decodes to the identifiers, serials and actual packet intervals at their specified offsets; a shorter reply makes the decoder read out of bounds.", "quantifier": "every byte string", "why_tests_cant": "short replies come from devices, not tests", "anchors": ["src/cip/connectionManager/ForwardOpenResponse.cpp:expand"]}
{"id": "C21", "title": "Receiving does not depend on TCP segmentation", "statement": "Receive(n) returns the next n bytes of the peer's stream whatever way the network splits them into segments and however often system calls are interrupted.", "quantifier": "every byte stream, every split into segments, every placement of EINTR", "why_tests_cant": "schedules of the network cannot be enumerated", "anchors": ["src/sockets/TCPSocket.cpp:Receive"]}
{"id": "C22", "title": "Replies stay in step with requests", "statement": "If the peer answers each request with one well-formed frame (success status, matching handle) then the k-th sendAndReceive returns exactly the k-th frame, for any number of requests and any TCP segmentation.", "quantifier": "every number of calls, every list of frames, every segmentation", "why_tests_cant": "unbounded histories", "anchors": ["src/SessionInfo.cpp:sendAndReceive"]}
{"id": "C23", "title": "sendAndReceive returns only successful replies of this session", "statement": "Whatever the peer sends, if sendAndReceive returns normally then the reply has encapsulation status success and, when the session handle is non-zero, carries this session's handle.", "quantifier": "every byte stream and session", "why_tests_cant": "adversarial peers", "anchors": ["src/SessionInfo.cpp:sendAndReceive"]}
{"id": "C24", "title": "A reply cut short by the peer is not detected", "statement": "A caller relies on a reply being exactly what the peer sent. When the peer closes the connection early the missing bytes are silently replaced by zeros, so a truncated reply can be returned as a success.", "quantifier": "every stream that ends early", "why_tests_cant": "needs every cut point", "anchors": ["src/sockets/TCPSocket.cpp:Receive", "src/SessionInfo.cpp:sendAndReceive"]}
{"id": "C25", "title": "Registration stores the handle granted by the target", "statement": "Constructing a session sends RegisterSession with handle 0 and, when the target answers success, every later request carries the granted handle; any other status makes construction throw.", "quantifier": "every reply of the target", "why_tests_cant": "all replies and histories", "anchors": ["src/SessionInfo.cpp:SessionInfo"]}
{"id": "C26", "title": "Send failures are reported", "statement": "A caller relies on Send throwing unless all bytes were handed to the operating system. A short count throws, but an error return (-1) is converted to a huge unsigned number and accepted as success.", "quantifier": "every return value of the system call and every payload length", "why_tests_cant": "error returns of the kernel are hard to provoke", "anchors": ["src/sockets/TCPSocket.cpp:Send", "src/sockets/UDPSocket.cpp:Send"]}
{"id": "C27", "title": "Explicit request end to end", "statement": "sendRequest writes exactly one SendRRData frame holding a null address item, one unconnected data item with the request and then the additional items, and when the target answers with a well-formed frame it returns exactly the service, status, additional status, data and extra items of that reply.", "quantifier": "every request, path, additional items, reply and TCP segmentation", "why_tests_cant": "composition of five codecs over all inputs", "anchors": ["src/MessageRouter.cpp:sendRequest"]}
{"id": "C28", "title": "Malformed router replies never look like success by themselves", "statement": "If sendRequest returns normally then the reply frame had at least two items and the second item started with the returned service code, reserved byte and status; replies with fewer than 6 payload bytes or fewer than two items throw; a reply with 6 or 7 payload bytes reads out of bounds.", "quantifier": "every reply frame", "why_tests_cant": "malformed replies are unbounded", "anchors": ["src/MessageRouter.cpp:sendRequest"]}
{"id": "C29", "title": "Requested sizes on the wire", "statement": "forwardOpen requests the user's connection sizes plus 2 bytes when the transport class has a sequence count plus 4 when a real-time header is used, with owner, type, priority and fixed/variable bits unchanged, provided the sum fits the size field; when it does not fit the carry corrupts the other bits.", "quantifier": "every parameter structure, both request kinds", "why_tests_cant": "carry needs sizes near the limit", "anchors": ["src/ConnectionManager.cpp:forwardOpen"]}
{"id": "C30", "title": "Connection serial numbers do not repeat within 65536 opens", "statement": "Of any two forwardOpen calls in a process (through any managers) that are fewer than 65536 calls apart, the connection serial numbers differ; exactly 65536 apart they coincide.", "quantifier": "every sequence of forwardOpen calls", "why_tests_cant": "needs 65536 calls", "anchors": ["src/ConnectionManager.cpp:forwardOpen (serialNumberCount)"]}
{"id": "C31", "title": "Connection identifiers chosen by the scanner are distinct", "statement": "Point-to-point T->O identifiers handed out by a process differ for any two of fewer than 2^32 opens; multicast O->T identifiers differ only within 65536 opens and lose the incarnation part.", "quantifier": "every sequence of forwardOpen calls and every incarnation value", "why_tests_cant": "needs many opens", "anchors": ["src/ConnectionManager.cpp:forwardOpen (idCount)"]}
{"id": "C32", "title": "Open connections table", "statement": "After any history of opens, closes and handling, every connection in the table is a live object stored under the low 16 bits of its T->O identifier, no two share those bits, and hasOpenConnections() is true exactly when the table is non-empty.", "quantifier": "every history of operations, replies, datagrams and clock readings", "why_tests_cant": "histories are unbounded", "anchors": ["src/ConnectionManager.cpp", "src/ConnectionManager.h:_connectionMap"]}
{"id": "C33", "title": "A successful forward open yields a usable connection", "statement": "When the target accepts, forwardOpen returns a pointer to a connection that carries the identifiers and intervals of the reply and is in the table, provided no open connection has a T->O identifier with the same low 16 bits; otherwise the returned pointer is already expired although the target opened the connection. When the target refuses, null is returned and the table is unchanged.", "quantifier": "every reply and every table state", "why_tests_cant": "collisions need many opens or particular devices", "anchors": ["src/ConnectionManager.cpp:forwardOpen"]}
{"id": "C34", "title": "Incoming data reaches the right connection", "statement": "A datagram whose connection identifier equals that of an open connection is handed to that connection and to no other; identifiers whose low 16 bits match no open connection are dropped. Identifiers that only agree in the low 16 bits are misdelivered.", "quantifier": "every table state and datagram", "why_tests_cant": "identifier coincidences are rare in tests", "anchors": ["src/ConnectionManager.cpp:findOrCreateSocket (receive handler)"]}
{"id": "C35", "title": "Fixed-size connections deliver only the agreed size", "statement": "The receive callback of a fixed-size connection is invoked only with data of exactly the agreed length; other datagrams neither call it nor count as a sign of life.", "quantifier": "every history and datagram", "why_tests_cant": "all lengths", "anchors": ["src/IOConnection.cpp:notifyReceiveData"]}
{"id": "C36", "title": "Received payload decoding", "statement": "For each combination of transport class and real-time format the callback gets the header, sequence count and data found in the datagram at the specified offsets; a producer using the same layout as this scanner's own transmissions is decoded correctly unless both a sequence count and a real-time header are present, in which case they are swapped.", "quantifier": "every payload and flag combination", "why_tests_cant": "the failing combination is untested", "anchors": ["src/IOConnection.cpp:notifyReceiveData,notifyTick"]}
{"id": "C37", "title": "Transmitted sequence numbers", "statement": "The k-th production period of a connection uses encapsulation sequence number k modulo 2^32 and, for class 1/3, sequence count k modulo 2^16; transmitted datagrams therefore carry strictly advancing numbers and a skipped transmission leaves a gap.", "quantifier": "every history of ticks, receptions and data changes", "why_tests_cant": "histories", "anchors": ["src/IOConnection.cpp:notifyTick"]}
{"id": "C38", "title": "Transmissions are never faster than the negotiated interval", "statement": "Any two consecutive production periods of a connection are at least its O->T interval apart in real time, however irregularly handleConnections is called.", "quantifier": "every schedule of calls (any clock readings)", "why_tests_cant": "schedules are unbounded", "anchors": ["src/IOConnection.cpp:notifyTick"]}
{"id": "C39", "title": "Calls closer than a millisecond starve the connection", "statement": "A user calling handleConnections at least as often as required expects the data to be produced. Because each call discards the fraction of a millisecond, a schedule whose calls are all less than one millisecond apart never transmits and never times out.", "quantifier": "every schedule with gaps below one millisecond", "why_tests_cant": "infinite schedules", "anchors": ["src/IOConnection.cpp:notifyTick"]}
{"id": "C40", "title": "Connection timeout", "statement": "A connection is closed by a tick exactly when the whole milliseconds counted since its last accepted datagram exceed T->O interval x 4 x 2^multiplier, for multiplier codes 0..5 and products below 2^32 microseconds; for codes 6 and 7 the stored multiplier becomes 0 and the connection is closed at the first counted millisecond.", "quantifier": "every schedule of ticks and receptions, every multiplier and interval", "why_tests_cant": "timing histories and overflow", "anchors": ["src/IOConnection.cpp:notifyTick", "src/ConnectionManager.cpp:forwardOpen"]}
{"id": "C41", "title": "Close notification happens at most once and only on timeout", "statement": "Over any history the close callback of a connection runs at most once, only when it is removed by timeout, never by forwardClose, and no receive, send or close callback runs for a connection after it left the table.", "quantifier": "every history", "why_tests_cant": "histories", "anchors": ["src/ConnectionManager.cpp:handleConnections,forwardClose", "src/IOConnection.cpp"]}
{"id": "C42", "title": "forwardClose closes this connection and only this one", "statement": "forwardClose of a live connection sends one ForwardClose carrying its serial, vendor, originator serial and path and removes exactly that connection whatever the target answers; closing an expired pointer does nothing. A caller still holding a timed-out connection can make it remove a different connection with the same low 16 identifier bits, or trip the assertion.", "quantifier": "every table state and pointer", "why_tests_cant": "lifetimes and identifier reuse", "anchors": ["src/ConnectionManager.cpp:forwardClose"]}
{"id": "C43", "title": "One implicit socket per manager", "statement": "However many connections to however many hosts are opened, a manager creates at most one bound UDP socket, and it is bound to port 2222.", "quantifier": "every history of opens", "why_tests_cant": "all hosts", "anchors": ["src/ConnectionManager.cpp:findOrCreateSocket", "src/sockets/EndPoint.cpp:operator<"]}
{"id": "C44", "title": "EndPoint ordering", "statement": "operator< on end points is irreflexive, asymmetric and transitive, but it is not a strict weak order and is not consistent with operator==: different end points can be equivalent.", "quantifier": "every end point triple", "why_tests_cant": "relational laws over all triples", "anchors": ["src/sockets/EndPoint.cpp:operator<"]}
{"id": "C45", "title": "handleConnections needs an implicit socket", "statement": "handleConnections is free of undefined behaviour in the socket wait exactly when the manager has created a socket, which holds after any successful forwardOpen and keeps holding forever.", "quantifier": "every history", "why_tests_cant": "depends on history", "anchors": ["src/ConnectionManager.cpp:handleConnections", "src/sockets/BaseSocket.cpp:select"]}
{"id": "C46", "title": "Malformed implicit datagrams", "statement": "A datagram can stop the handling: for every datagram the exact outcome (delivered, dropped, exception, out-of-bounds read) is determined, an exception leaves all connections and their counters unchanged, and a two-byte datagram suffices to read out of bounds.", "quantifier": "every datagram", "why_tests_cant": "adversarial input", "anchors": ["src/ConnectionManager.cpp:findOrCreateSocket (receive handler)", "src/sockets/UDPSocket.cpp:Receive"]}
{"id": "C47", "title": "Truncated datagrams are padded", "statement": "A callback relies on getting only bytes that arrived. UDP receives return a full-size buffer padded with zeros, so a datagram whose item length exceeds the bytes received is delivered with invented zero bytes.", "quantifier": "every datagram and declared length", "why_tests_cant": "all lengths", "anchors": ["src/sockets/UDPSocket.cpp:Receive"]}
{"id": "C48", "title": "Waiting time conversion", "statement": "The interval given to select is never negative, has a microsecond part below one million and equals the remaining milliseconds when they are positive and zero otherwise.", "quantifier": "every millisecond count", "why_tests_cant": "all integers including negative", "anchors": ["src/sockets/BaseSocket.cpp:makePortableInterval"]}
{"id": "C49", "title": "handleConnections may not return while datagrams keep arriving", "statement": "A caller relies on handleConnections returning after about the given timeout and on ticks being run. The wait loop continues as long as a socket is ready regardless of the deadline, so with a steady stream of datagrams ticks are postponed without bound.", "quantifier": "every number of rounds and every clock", "why_tests_cant": "unbounded schedules", "anchors": ["src/sockets/BaseSocket.cpp:select"]}
{"id": "C50", "title": "Transmitted frame contents", "statement": "Every transmitted datagram is a common packet with a sequenced address item holding the O->T identifier and sequence number and a connected data item holding, in order, the sequence count (class 1/3), the run header 1 (real-time format) and the user's current output data after the send callback, and goes to the negotiated end point; a fixed-size connection transmits only data of the agreed size.", "quantifier": "every connection, history and output data", "why_tests_cant": "all data and flags", "anchors": ["src/IOConnection.cpp:notifyTick"]}
{"id": "C51", "title": "Connections do not interfere", "statement": "Delivering a datagram to, or ticking, one connection leaves the state of every other connection unchanged.", "quantifier": "every table and operation", "why_tests_cant": "all pairs of connections", "anchors": ["src/ConnectionManager.cpp"]}
{"id": "C52", "title": "Discovery reports every well-formed answer once, in order", "statement": "If the network delivers any number of well-formed ListIdentity answers and then nothing until the receive timeout, discover() returns one device per identity item, in order of arrival, each with the address and identity fields of its answer.", "quantifier": "every list of answers", "why_tests_cant": "any number of devices", "anchors": ["src/DiscoveryManager.cpp:discover"]}
{"id": "C53", "title": "Discovery failure semantics", "statement": "discover() ends normally only by the would-block error; any other socket error and any rejected answer is thrown and all devices found so far are lost; an answer whose item is shorter than an identity record reads out of bounds.", "quantifier": "every sequence of receive outcomes", "why_tests_cant": "all sequences", "anchors": ["src/DiscoveryManager.cpp:discover"]}
{"id": "C54", "title": "Identity object", "statement": "Constructing an IdentityObject sends one GetAttributesAll to class 1 instance 1 whatever instance number was given, throws on any non-success status, and on a well-formed reply holds exactly the fields of the reply.", "quantifier": "every instance number and reply", "why_tests_cant": "all replies and instances", "anchors": ["src/IdentityObject.cpp"]}
{"id": "C55", "title": "Parameter object decoding", "statement": "For a device that returns well-formed attributes, a ParameterObject holds exactly the value, type, flags, names, limits, scaling and precision of the device, and the constructor sends exactly the documented sequence of requests.", "quantifier": "every attribute content", "why_tests_cant": "variable-length strings and paths in every combination", "anchors": ["src/ParameterObject.cpp"]}
{"id": "C56", "title": "Scaling conversions are inverse and monotone", "statement": "Converting an actual value to engineering units and back gives the same value in exact arithmetic whenever multiplier, base and divisor are non-zero; for every monotone rounding the conversion preserves order, so limits stay limits.", "quantifier": "every scaling setting and value; every monotone rounding", "why_tests_cant": "all 2^64 settings and real values", "anchors": ["src/ParameterObject.cpp:actualToEngValue,engToActualValue"]}
{"id": "C57", "title": "Engineering to actual conversion can overflow", "statement": "A user relies on engToActualValue being defined for every scaling setting. The product of multiplier and base is computed in int and overflows (undefined behaviour) exactly when it is at least 2^31.", "quantifier": "every multiplier and base", "why_tests_cant": "all 2^32 pairs", "anchors": ["src/ParameterObject.cpp:engToActualValue"]}
{"id": "C58", "title": "updateValue", "statement": "updateValue sends one GetAttributeSingle for the value attribute, replaces the stored value by the reply on success, and on any other status throws and keeps the old value and all other fields.", "quantifier": "every object and reply", "why_tests_cant": "all replies", "anchors": ["src/ParameterObject.cpp:updateValue"]}
{"id": "C59", "title": "File upload completeness", "statement": "With a device that follows the file transfer protocol, beginUpload followed by handleTransfers until it returns false calls the handler exactly once with SUCCESS and exactly the file content, for files of any length below 2^32, across the wrap-around of the 8-bit packet number.", "quantifier": "every file content and every transfer size 1..255", "why_tests_cant": "file sizes beyond 256 packets, all contents", "anchors": ["src/fileObject/FileObjectLoadedState.cpp", "src/fileObject/FileObjectUploadInProgressState.cpp"]}
{"id": "C60", "title": "File upload integrity against any device", "statement": "Whatever the device answers, if the handler is called with SUCCESS then the content has exactly the announced length and is the concatenation, in order, of the payloads of the packets received since the upload began, whose numbers were 0,1,2,... modulo 256.", "quantifier": "every device behaviour and number of calls", "why_tests_cant": "adversarial devices", "anchors": ["src/fileObject/FileObjectUploadInProgressState.cpp:transfer"]}
{"id": "C61", "title": "The upload handler is called once", "statement": "A user relies on one completion call per upload. The handler can run again: an error status calls it and still reports 'in progress', and calling handleTransfers after completion requests another packet in the finished upload.", "quantifier": "every device behaviour", "why_tests_cant": "histories", "anchors": ["src/fileObject/FileObjectUploadInProgressState.cpp:transfer"]}
{"id": "C62", "title": "File object state follows the device", "statement": "Constructing a FileObject ends in the state named by the device's state attribute (0 non-existent, 1 empty, 2, 3 and 5 loaded), throws for any other value or a failed read, and beginUpload reaches 'upload in progress' only from 'loaded' after a success reply; in other states the handler is never called.", "quantifier": "every reply", "why_tests_cant": "all replies", "anchors": ["src/fileObject/FileObjectState.cpp:SyncState", "src/fileObject/FileObjectLoadedState.cpp"]}
{"id": "C63", "title": "PowerFlex fault listing", "statement": "handleFaultParameters reports faults 1,2,... in order until the first zero code (at most ten), each with the values read from the device, then clears the queue exactly when clearing is enabled and at least one fault was reported.", "quantifier": "every device content", "why_tests_cant": "all device contents", "anchors": ["src/vendor/ra/powerFlex525/DPIFaultManager.cpp:handleFaultParameters", "src/vendor/ra/powerFlex525/DPIFaultParameter.cpp"]}
{"id": "C64", "title": "Unknown fault codes stop the listing", "statement": "A user relies on every fault being reported. A code missing from the built-in table throws: earlier faults were reported, later ones are not, and the queue is not cleared.", "quantifier": "every device content", "why_tests_cant": "all codes", "anchors": ["src/vendor/ra/powerFlex525/DPIFaultCode.cpp", "src/vendor/ra/powerFlex525/DPIFaultManager.cpp"]}
{"id": "C65", "title": "DPI fault object decoding", "statement": "A DPIFaultObject read from a 30-byte reply holds the code, port, device, 16-byte text, timer and validity flags at their specified offsets; a failed read throws.", "quantifier": "every reply", "why_tests_cant": "all replies", "anchors": ["src/vendor/ra/powerFlex525/DPIFaultObject.cpp"]}
{"id": "C66", "title": "Yaskawa requests agree with 8-bit CIP requests", "statement": "For IDs below 256 the Yaskawa request bytes equal the standard request bytes in 8-bit mode.", "quantifier": "every service, path of 1..3 IDs below 256 and data", "why_tests_cant": "all inputs of two programs", "anchors": ["src/vendor/yaskawa/mp3300iec/Yaskawa_EPath.cpp", "src/vendor/yaskawa/mp3300iec/Yaskawa_MessageRouterRequest.cpp"]}
{"id": "C67", "title": "Log filtering", "statement": "A message is handed to the appender exactly when the global level is not OFF and the message level does not exceed it.", "quantifier": "every pair of levels and every history of setLogLevel", "why_tests_cant": "histories", "anchors": ["src/utils/Logger.cpp"]}
{"id": "C68", "title": "TCP connect outcomes", "statement": "The connecting constructor returns only when the connection was established; every failure after the socket was created inside the guarded region closes it; an interrupted wait is reported as a timeout instead of being retried.", "quantifier": "every sequence of system call results", "why_tests_cant": "kernel results", "anchors": ["src/sockets/TCPSocket.cpp:TCPSocket"]}
{"id": "C69", "title": "Settings chained after the redundant-owner setter are lost", "statement": "A user relies on chained builder setters changing the builder. All setters but setRedundantOwner return the builder itself; setRedundantOwner returns a copy, so every setting chained after it is applied to a temporary and the builder keeps only what was set up to and including it.", "quantifier": "every chain of setter calls", "why_tests_cant": "all chains", "anchors": ["src/cip/connectionManager/NetworkConnectionParams.h", "src/cip/connectionManager/NetworkConnectionParams.cpp"]}
{"id": "C70", "title": "Predefined connection parameter constants agree with the builder", "statement": "Every constant of NetworkConnectionParams equals what the builder produces for the same setting in a small forward open, and every setting but the size in a large forward open is the small one shifted by 16 bits. For every direction, trigger and class the constants of the transport byte combine to the byte with these fields.", "quantifier": "every constant and every setter value", "why_tests_cant": "all values of all setters", "anchors": ["src/cip/connectionManager/NetworkConnectionParams.h", "src/cip/connectionManager/NetworkConnectionParams.cpp"]}
{"id": "C71", "title": "Destroying a session", "statement": "Destroying a session writes exactly one UnRegisterSession frame carrying the session's handle. A user relies on destruction being harmless: if the system accepts only part of the frame, an exception leaves the destructor and the process is terminated.", "quantifier": "every session and every return value of the system call", "why_tests_cant": "kernel results", "anchors": ["src/SessionInfo.cpp:~SessionInfo"]}
{"id": "C72", "title": "Late replies are attributed to the next request", "statement": "A user relies on a reply answering the request it is returned for. Neither command nor sender context is checked: a reply that arrives after the receive timeout of its request is returned for the next request, whatever the two requests were.", "quantifier": "every pair of requests, every well-formed successful reply", "why_tests_cant": "needs timing of the peer", "anchors": ["src/SessionInfo.cpp:sendAndReceive"]}
{"id": "C73", "title": "Limits set in engineering units", "statement": "setEngMinValue, setEngMaxValue and setEngDefaultValue store the converted value without its fraction in the chosen integer type and change nothing else; a limit set to the engineering value of an actual value reads back as that value. If the converted value is not a value of the type the behaviour is undefined.", "quantifier": "every scaling setting, integer type, limit and value; every rounding", "why_tests_cant": "all settings and real values", "anchors": ["src/ParameterObject.h:setEngMinValue,setEngMaxValue,setEngDefaultValue"]}
{"id": "C74", "title": "Typed access to stored values", "statement": "getActualValue and the getters of the limits return the little-endian number at the start of the stored bytes, in two's complement for signed types. A user relies on a defined result for every type: with a type wider than the stored value the getter reads out of bounds.", "quantifier": "every integer type and every stored value", "why_tests_cant": "all widths, types and contents", "anchors": ["src/ParameterObject.h:getActualValue,encodeValue"]}
{"id": "C75", "title": "Malformed transfer packets", "statement": "A user relies on a bad packet being reported to the handler. A successful answer shorter than two bytes, or a first or middle packet shorter than the announced packet size, is read out of bounds; a last packet without a checksum throws std::length_error; an abort packet or an unknown type throws; in the throwing cases the handler is not called and the upload can go on.", "quantifier": "every answer to a transfer request", "why_tests_cant": "all packets", "anchors": ["src/fileObject/FileObjectUploadInProgressState.cpp:transfer"]}
{"id": "C76", "title": "Listing faults again", "statement": "Against a drive that answers from its fault queue every fault is reported once and in order, and the queue is cleared exactly when asked for. A second call then reports nothing; without clearing it reports every fault again, although the handler is documented to get new faults.", "quantifier": "every queue of at most ten known faults, every setting of the manager", "why_tests_cant": "all device histories", "anchors": ["src/vendor/ra/powerFlex525/DPIFaultManager.cpp:handleFaultParameters"]}
{"id": "C77", "title": "Making and destroying a session", "statement": "A session that cannot be made, because connecting or registering fails, leaves no socket open (except when the socket cannot be made non-blocking, see C68). A session that is made sits on an established connection; making and destroying it writes RegisterSession first and UnRegisterSession with the granted handle last, and closes the socket.", "quantifier": "every sequence of system call results and every reply of the peer", "why_tests_cant": "kernel results and peers", "anchors": ["src/SessionInfo.cpp:SessionInfo,~SessionInfo", "src/sockets/TCPSocket.cpp:TCPSocket,~TCPSocket"]}
{"id": "C78", "title": "Listeners that call back into the manager", "statement": "Receive, send and close listeners run inside handleConnections and may call the manager. Whatever calls other than handleConnections they make, each connection is ticked at most once per call and in the order of the keys, a connection that stays open is ticked, connections do not interfere, the table stays consistent, frames, pacing and timeouts are as without calls, a connection leaves the table only after its close listener or a ForwardClose request, and then stays silent. A user relies on every call being allowed; but a send or close listener that closes its own connection is undefined behaviour, always; a close listener that reopens the connection may get an expired pointer; and a connection reopened by another listener may be removed at once without notice. Nested handleConnections can be undefined behaviour or send numbers out of order.", "quantifier": "every history, every list of calls made by every run of every listener, every reply", "why_tests_cant": "all interleavings of listeners' calls with the loop over the connections", "anchors": ["src/ConnectionManager.cpp:handleConnections,forwardOpen,forwardClose", "src/IOConnection.cpp:notifyTick,notifyReceiveData"]}
{"id": "C79", "title": "Objects over a TCP session, byte for byte", "statement": "Over a session with a target whose reply frames carry the data of an identity, a parameter, a file or the faults of a drive, the object classes return exactly these data and write exactly the documented frames in order, however the bytes are cut into segments. For a file this holds from connecting to closing: the handler gets the content once, and no descriptor stays open.", "quantifier": "every content, every reply frame that carries it, every segmentation, every number of packets", "why_tests_cant": "all segmentations of all byte streams through four layers", "anchors": ["src/MessageRouter.cpp:sendRequest", "src/SessionInfo.cpp:sendAndReceive", "src/IdentityObject.cpp", "src/ParameterObject.cpp", "src/FileObject.cpp", "src/vendor/ra/powerFlex525/DPIFaultManager.cpp"]}
{"id": "C80", "title": "Comparing and showing paths and end points", "statement": "Two paths compare equal exactly if they have the same identifiers, which is exactly if they are sent as the same bytes; their text shows the identifiers in order. End points compare equal exactly if host and port and the system's address are the same; a port outside its range is not refused, and spellings of one address differ.", "quantifier": "every path, host and port", "why_tests_cant": "all pairs", "anchors": ["src/cip/EPath.cpp:operator==,toString", "src/sockets/EndPoint.cpp"]}
{"id": "C81", "title": "A silent target is noticed and a live one is kept", "statement": "The loop while (manager.hasOpenConnections()) manager.handleConnections(t) ends when the targets have gone: whatever happened before, after more calls than its timeout has milliseconds a connection for which nothing is accepted has been closed and is no longer open. A connection whose data keep arriving is never closed, however long the loop runs. (Calls must be a millisecond apart, see C39, and the timeout below 2^32 microseconds, see C40.)", "quantifier": "every history, then every number of calls at every times, with data written, pointers kept and opens by other managers in between", "why_tests_cant": "liveness and safety over unbounded histories", "anchors": ["src/ConnectionManager.cpp:handleConnections,hasOpenConnections", "src/IOConnection.cpp:notifyTick,notifyReceiveData"]}
{"id": "C82", "title": "Scanner and target agree on the open connections", "statement": "Against a target that keeps its connections by connection triad and answers every forward open and forward close, every connection the manager reports as open is open in the target, no two with the same triad, and if nothing is lost the manager's open connections are exactly the target's. Exceptions: a forward open that throws after the target accepted it, an identifier with low 16 bits already in use, and a local timeout leave a connection in the target that the manager never closes.", "quantifier": "every history of opens, closes and service calls, every choice of identifiers and refusals by the target", "why_tests_cant": "joint histories of two parties", "anchors": ["src/ConnectionManager.cpp:forwardOpen,forwardClose,handleConnections"]}
{"id": "C83", "title": "The connection manager over a TCP session, byte for byte", "statement": "A history of the manager over a session is a history of the manager with the answers of the session filled in. Whatever the target and the network do, the bytes it writes are exactly the frames of its requests, in order; over the whole life of the session they are framed by one registration and one end of session, can be cut into frames in exactly one way, and a target that reads a frame finds the request. When reply frames arrive, cut into segments in any way, the history gets exactly what they carry, in order.", "quantifier": "every history of calls, every initial state, every behaviour of target and network, every segmentation", "why_tests_cant": "composition of three layers over unbounded histories and streams", "anchors": ["src/ConnectionManager.cpp:forwardOpen,forwardClose", "src/MessageRouter.cpp:sendRequest", "src/SessionInfo.cpp:sendAndReceive", "src/sockets/TCPSocket.cpp:Send,Receive"]}
{"id": "C84", "title": "Listeners that throw", "statement": "The exception of a receive, send or close listener leaves handleConnections unchanged as the last thing that happens; no connection is added or removed by a call that throws, and nothing else but failing system calls, malformed packets and short sends makes it throw. A datagram whose listener threw counts as received; a send listener that throws sends nothing and uses up the sequence number. The close listener of a connection runs at most once more than there were calls that threw. A user relies on a close listener running once, on a connection being gone after it, and on the other connections being served; but a close listener that throws runs again at every call, connections with greater keys are not served meanwhile, connections closed in the same call are closed again, and a connection whose close listener has run can come back to life.", "quantifier": "every history, every listener that throws anywhere, every exception", "why_tests_cant": "all points at which user code can throw, over unbounded histories", "anchors": ["src/ConnectionManager.cpp:handleConnections", "src/IOConnection.cpp:notifyTick,notifyReceiveData", "src/sockets/BaseSocket.cpp:select"]}
{"id": "C85", "title": "Sockets are closed exactly once, and none leaks", "statement": "Whatever a process does with a connection manager, its connections and its own descriptors, every system call of the library is made on a descriptor that is open: none is used after it was closed and none is closed twice. Afterwards exactly these descriptors are open: those of the rest of the process, one for each implicit socket of the manager (at most one), and one for each connection that a pointer still reaches, all different. A forward open that yields no connection leaves no descriptor behind, whichever step failed; once the manager is destroyed and no connection is held nothing of it is left. Each connection sends on its own descriptor; what is bound is bound to port 2222 of all addresses.", "quantifier": "every history of calls, failures of system calls, destruction, and descriptors opened and closed by the rest of the process", "why_tests_cant": "all failure points and lifetimes over unbounded histories", "anchors": ["src/ConnectionManager.cpp:forwardOpen,findOrCreateSocket,~ConnectionManager", "src/sockets/UDPSocket.cpp", "src/sockets/UDPBoundSocket.cpp", "src/IOConnection.h:_socket"]}
{"id": "C86", "title": "Descriptors that do not fit a set", "statement": "Serving connections is defined exactly if the descriptor of the implicit socket is below 1024, and then waits on exactly the implicit sockets with a limit that covers them. If the system gives the lowest free descriptor and the process never has more than 1022 open, it always is. If the first forward open is made while the descriptors 0 to 1022 are open it succeeds, but serving is undefined from then on, even if the other descriptors are closed.", "quantifier": "every history, every choice of descriptors by the system", "why_tests_cant": "needs processes with a thousand descriptors and all histories", "anchors": ["src/sockets/BaseSocket.cpp:select", "src/ConnectionManager.cpp:findOrCreateSocket,handleConnections"]}
{"id": "C87", "title": "Discovery's socket and time", "statement": "Discovery makes one socket, sets the receive timeout and the permission to broadcast before it sends, sends one request to the broadcast address, and closes the socket exactly when it returns or throws. With a positive timeout it returns, not before the timeout, and with exactly the devices whose answers had arrived by then; if it needs no time itself, it returns at the first moment at which nothing was received for as long as the timeout. A user relies on the timeout bounding the time of discovery: but answers that keep coming keep it going, and with a timeout of zero or less it never returns.", "quantifier": "every timeout, every sequence of answers with their times, every time needed between two receives, every failure", "why_tests_cant": "all arrival times", "anchors": ["src/DiscoveryManager.cpp:discover,makeSocket", "src/sockets/BaseSocket.cpp:setRecvTimeout,makePortableInterval"]}
{"id": "C88", "title": "How long a request takes", "statement": "With a timeout of some milliseconds set, every request over a session ends: with the verdict on the reply, no later than its last byte arrives, if no gap in it is longer than the timeout; with the system's EAGAIN exactly one timeout after the last byte, if the target falls silent before the reply is complete; in every case after at most as many timeouts as a frame can have bytes, and one for each interruption. A user relies on the timeout bounding the request: but a target that sends one byte per timeout makes the request take as many timeouts as the reply has bytes, and with a timeout of zero or less the request never ends when the target is silent.", "quantifier": "every request, every sequence of events of the network with their times, every timeout", "why_tests_cant": "all arrival times", "anchors": ["src/SessionInfo.cpp:sendAndReceive", "src/sockets/TCPSocket.cpp:Receive", "src/sockets/BaseSocket.cpp:setRecvTimeout,makePortableInterval"]}
{"id": "C89", "title": "A late reply", "statement": "If every reply arrives before the timeout after its request, the k-th request gets the k-th reply. A user relies on a request that timed out having no effect on later ones: but when only the first reply comes after its timeout, the first request fails and every later request returns, as a success, the reply to the request before it.", "quantifier": "every number of requests, all replies, all times of requests and arrivals", "why_tests_cant": "unbounded histories and all times", "anchors": ["src/SessionInfo.cpp:sendAndReceive", "src/sockets/TCPSocket.cpp:Receive"]}
{"id": "C90", "title": "How long the operations of objects take", "statement": "Over a session with a positive timeout every operation of an object ends, whatever the target does: reading an identity, a file object or a fault object makes at most one request, reading a parameter six, updating it one, beginning an upload and each step of it one, reading a fault of a drive four, listing its faults 41; and the time is at most 65559 timeouts for each and one for every interruption. If what the target sends comes in time, the operation ends exactly as without times, so that what is known about the bytes (C79) holds.", "quantifier": "every target, all arrival times, every object, every timeout", "why_tests_cant": "all arrival times and all replies", "anchors": ["src/IdentityObject.cpp", "src/ParameterObject.cpp:ParameterObject,updateValue", "src/FileObject.cpp", "src/vendor/ra/powerFlex525/DPIFaultManager.cpp:handleFaultParameters", "src/SessionInfo.cpp:sendAndReceive"]}
{"id": "C91", "title": "Objects whose replies come late", "statement": "If a target says nothing before the timeout, an operation on it throws EAGAIN exactly one timeout after it began, having written one request and changed nothing. A user relies on being able to go on after that: but when the reply then comes, the next update of another parameter object takes the value of the first for its own, and an upload that is continued takes the late packet, finds its repetition where the next packet should be, and ends with an error.", "quantifier": "every pair of parameter objects, every upload, all values, all times", "why_tests_cant": "all arrival times and all replies", "anchors": ["src/ParameterObject.cpp:updateValue", "src/fileObject/FileObjectUploadInProgressState.cpp:transfer", "src/SessionInfo.cpp:sendAndReceive"]}
{"id": "C92", "title": "Comparing packets, items and revisions", "statement": "Two packets a user has made, changed or decoded compare equal exactly if they are the same bytes on the wire, and unequal exactly if not. The same holds of items with less than 65536 bytes; it fails for longer ones, as an item with a multiple of 65536 bytes is sent like the empty item. Two revisions compare equal exactly if both their numbers are equal, and exactly if they are shown as the same text.", "quantifier": "every pair of packets obtained in any way, of items and of revisions", "why_tests_cant": "all pairs of all sizes", "anchors": ["src/eip/EncapsPacket.cpp:operator==,operator!=,setData", "src/eip/CommonPacketItem.cpp:operator==,operator!=,pack", "src/cip/CipRevision.cpp:operator==,toString"]}
{"id": "C93", "title": "Opening and closing connections over a slow session", "statement": "Over a session with a positive timeout, each call of a connection manager makes at most one request, a whole history takes at most 65559 timeouts for each request and one for every interruption, and if what the target sends comes in time it is exactly the history without times. A forward open to a silent target throws EAGAIN after one timeout and changes nothing but the serial number; a forward close changes nothing. A user relies on the returned connection being the one that the target opened for the call: but after a late reply it has the identifiers and serial number of the connection before, with its own path; closing it closes the other one in the target, and the target keeps a connection that the manager never knew.", "quantifier": "every history of a manager, every target, all arrival times; every reachable manager and every pair of connections", "why_tests_cant": "all histories, arrival times and replies", "anchors": ["src/ConnectionManager.cpp:forwardOpen,forwardClose", "src/SessionInfo.cpp:sendAndReceive"]}
{"id": "C94", "title": "How promptly connections are handled", "statement": "A call of handleConnections with a timeout of t milliseconds that returns normally has received, in order and once each, exactly the datagrams that had arrived when it returned; it lasts more than t-1 milliseconds, and at most t and the time that handling them takes. In a loop of such calls no datagram is lost. A connection still open after n calls has been asked for output data if n*(t-1) milliseconds are at least its interval. A user relies on a loop of calls keeping connections alive for any timeout: but with t = 1, while datagrams for nobody arrive more often than once a millisecond, no connection ever sends or times out.", "quantifier": "every manager, every timeout, all arrival times and contents of datagrams, any handling times, any number of calls", "why_tests_cant": "all arrival times and unboundedly many calls", "anchors": ["src/ConnectionManager.cpp:handleConnections", "src/sockets/BaseSocket.cpp:select", "src/IOConnection.cpp:notifyTick", "examples/ImplicitMessagingExample.cpp"]}
{"id": "C95", "title": "Which calls of a connection manager are defined", "statement": "In every reachable state a call of a connection manager has undefined behaviour exactly if: it opens after 2^31-1 opens of the process, with a timeout code above 31, or is answered with success by an incomplete reply or one with a short socket address; or it waits before any open has returned a connection, or meets a datagram that is not a common packet, has no room for an identifier or no room for the header of its connection, before anything that ends the wait. An assertion ends a call exactly if it closes, through a pointer that the user kept, a connection that is no longer in the manager and whose key is free. So a program that passes proper arguments, waits only after an open succeeded and closes only open connections always runs on, whatever a rule-abiding target and network do and whatever its listeners throw.", "quantifier": "every history of a manager, every call, every reply, every sequence of arrivals", "why_tests_cant": "all histories, replies and datagrams", "anchors": ["src/ConnectionManager.cpp:forwardOpen,forwardClose,handleConnections,findOrCreateSocket", "src/sockets/BaseSocket.cpp:select", "src/IOConnection.cpp:notifyReceiveData"]}
{"id": "C96", "title": "The example programs with explicit messages", "statement": "Whatever the device does, the explicit messaging example asks for the vendor and then writes the assembly, reports each answer and exits with 0, unless an answer does not come or an announced vendor has fewer than two bytes. The file example exits with 0 and the exact file written if the device sends one; whatever the device does, what it writes is exactly what the device sent for the announced size, and it writes nothing otherwise; but it never ends if the device answers every transfer with an error, and it exits with 0 without a file if the device has none or refuses to send it. The parameter example reads every parameter the device has, with all attributes exactly if the class says so, and its exit code 0 says that all of them were answered; but it reads out of bounds if the first parameter has a value of one byte.", "quantifier": "every device, every list of parameters, every file, every number of iterations", "why_tests_cant": "all behaviours of the device", "anchors": ["examples/ExplicitMessagingExample.cpp", "examples/FileObjectExample.cpp", "examples/ParameterObjectExample.cpp"]}
{"id": "C97", "title": "The example program with implicit messages", "statement": "Whatever the target and the network do, if the implicit messaging example exits it exits with 0 and no connection registered, after an open request and either a refusal and no wait, or a connection that timed out within 200 waits and no close request, or 200 waits and exactly one close request. Its open request is always the same but for the serial number, and every datagram it sends goes to the connection's address, counted by ones, and carries 32 zero bytes. If the target and network keep to the rules it has no undefined behaviour. But it catches nothing: if a wait throws, for example as a signal interrupts it, it ends at once and the target is never asked to close.", "quantifier": "every target, every sequence of arrivals and times, every history of the process before", "why_tests_cant": "all schedules of up to 200 waits", "anchors": ["examples/ImplicitMessagingExample.cpp", "src/ConnectionManager.cpp:forwardOpen,handleConnections,forwardClose,hasOpenConnections"]}
{"id": "C98", "title": "Several managers in one process", "statement": "However a program makes, calls and destroys connection managers, each one behaves exactly as if it were alone and the opens of the others only advanced the counters: its calls have the same effects and results, and no operation on another manager changes it. The serial numbers count the opens of all managers from 1 modulo 65536, the point-to-point T->O identifiers such opens above the random number of the manager that made the first one, so two opens of the process less than 65536 apart differ in serial number, and point-to-point ones in identifier. Destroying a manager sends nothing, and only the connections that the program keeps can still be reached. A user relies on the random number telling managers apart and on forwardClose closing the connection it is given: but all managers number above the first one's number, and a connection closed through another manager stays open in its own, while the process is aborted or a connection of the manager called is removed instead.", "quantifier": "every sequence of constructions, destructions and calls of any number of managers, all calls and replies", "why_tests_cant": "all interleavings of any number of managers", "anchors": ["src/ConnectionManager.cpp:ConnectionManager,~ConnectionManager,forwardOpen,forwardClose", "src/ConnectionManager.h:ConnectionManager"]}
{"id": "C99", "title": "Objects made by hand", "statement": "A parameter or identity object made without a device starts with zeros of the size given, empty texts and a scaling that changes nothing, and after any series of setter calls each getter returns what its setter was last called with, or the initial value if it never was; the product name comes back whole whatever its length. A limit set in engineering units is stored converted with the scaling in force at that call and is not converted again when the scaling changes; no setter changes another attribute. A typed getter of a new object returns 0 if the type fits the size given and otherwise reads out of bounds. A user relies on getParameter() being the instance the object stands for: in an object made by hand it is 0 and cannot be set.", "quantifier": "every series of setter calls with any arguments, every object to start from, every size, every integer type, every rounding", "why_tests_cant": "all setter histories, unbounded in length, and all argument values", "anchors": ["src/ParameterObject.cpp:ParameterObject,setScalable,setReadOnly,setType,setName,setUnits,setHelp,setScalingMultiplier,setScalingDivisor,setScalingBase,setScalingOffset,setPrecision,getParameter", "src/ParameterObject.h:setEngMinValue,setEngMaxValue,setEngDefaultValue", "src/IdentityObject.cpp:IdentityObject,setVendorId,setDeviceType,setProductCode,setRevision,setStatus,setSerialNumber,setProductName,getProductName"]}
{"id": "C100", "title": "Threads that share a session", "statement": "If a program lets only one thread at a time make a call over a session, then in every schedule, however replies are cut into pieces, each call of each thread gets the reply to its own request, exactly as in a program with one thread, and each thread's requests go out in order, each once. handleConnections does not use the session, so another thread may do so meanwhile. A user may rely on the session keeping replies apart without such a lock: but even if whole replies are received one at a time, the call that ends as the k-th gets the reply to the request sent as the k-th, whichever thread sent it, so two threads can get each other's replies without any error; and if receives overlap, calls return packets that the device never sent. The lock does not help against late replies: once calls have timed out, every later call of any thread gets the reply to a request that lies as many calls back as there were timeouts, and if a timeout expired in the middle of a reply, packets are returned that were never sent.", "quantifier": "every number of threads, all requests of each, every peer that answers each request with a well-formed packet, every interleaving of the system calls and every segmentation of the replies", "why_tests_cant": "all schedules of all threads, unbounded in length", "anchors": ["src/SessionInfo.cpp:sendAndReceive", "src/sockets/TCPSocket.cpp:Send,Receive", "src/ConnectionManager.cpp:handleConnections"]}
{"id": "C101", "title": "The order of calls of different managers", "statement": "A program with several connection managers may call them in any order, for example from a loop that serves one after the other or from one thread per manager under a common lock: if every manager gets its own calls in the same order and the forward opens of all managers come in the same order, then every call sends, calls back and returns the same, and every manager ends in the same state. If at most one manager opens connections, every interleaving gives the same. The order of opens of two managers matters: the numbers of their connections are swapped.", "quantifier": "every number of managers in every state, every finite sequence of calls, every reordering of it", "why_tests_cant": "all interleavings of all call sequences", "anchors": ["src/ConnectionManager.cpp:forwardOpen,forwardClose,handleConnections", "src/IOConnection.cpp:notifyTick,setDataToSend"]}
{"id": "C102", "title": "The state of a file object, and several uploads with one object", "statement": "getState()->getStateCode() tells what an object will do: beginUpload makes its request exactly if it is FILE_LOADED, handleTransfers exactly if it is TRANSFER_UPLOAD_IN_PROGRESS. getState()->SyncState() sets it to what the device answers, from every state and without calling a handler, or throws and leaves the object as it is. With one object any number of files can be uploaded one after the other if SyncState is called before each beginUpload: each handler is called once with its file. A user may rely on beginUpload alone for the second file: but the state stays in progress after a complete upload, so the second beginUpload does nothing, its handler is never called, and handleTransfers goes on with the first file.", "quantifier": "every state of the object, every device, every list of files, packet sizes and handlers", "why_tests_cant": "all histories of an object and all devices", "anchors": ["src/FileObject.h:getState", "src/fileObject/FileObjectState.cpp:getStateCode,SyncState", "src/fileObject/FileObjectLoadedState.cpp:initiateUpload", "src/fileObject/FileObjectUploadInProgressState.cpp:initiateUpload,transfer"]}
{"id": "C103", "title": "What the Yaskawa, identity and discovery examples do", "statement": "Whatever the device answers, the Yaskawa example reads assembly 0x65, reads assembly 0x6F, writes 128 bytes to 0x6F, in this order, reports each answer and ends with exit code 0 even if every request is refused; it ends by the exception of the first request without an answer. A read gives the first 4 * sizeof(Buffer) bytes of the reply, so it gives the whole assembly only if the size happens to agree. A user may expect that a shorter reply is reported: but it is read out of bounds. The identity example makes one request and prints the seven values the device sends. The discovery example prints name and address of every announced device, in the order of the answers.", "quantifier": "every device and history of it, every platform size of the buffer object, every list of discovery answers", "why_tests_cant": "all replies of a device, of all lengths, and all points at which the connection is lost", "anchors": ["examples/vendors/yaskawa/mp3300iec/Yaskawa_AssemblyObjectExample.cpp:main,readAssemblyObject,writeAssemblyObject,fillVector,readBuffer", "examples/IdentityObjectExample.cpp:main", "examples/DiscoveryManagerExample.cpp:main"]}
{"id": "C104", "title": "Engineering values in the arithmetic of double", "statement": "In IEEE double arithmetic (nearest, ties to even) the engineering value of a parameter of up to 32 bits is within one part in 2^50 of (actual + offset) * multiplier * base / (divisor * 10^precision), and none of the operations overflows or loses bits near zero. It is exact, and a limit set to it reads back unchanged, when the value is a whole number and the products fit into 53 bits. A user may expect that a limit set to the engineering value of v always reads back as v: but it reads back as v or as the next integer toward zero, never anything else; with multiplier 1, divisor 3 and one decimal the limit set to the value of 11 is 10. With 64-bit types even that is lost: setting the largest value of an object without scaling is undefined.", "quantifier": "all integer types of up to 32 bits and all their values, all scaling attributes that are not zero (product of multiplier and base below 2^31), every value of std::pow that is positive (accuracy: right to the last bit), all three limits", "why_tests_cant": "2^32 values times 2^80 scaling attributes", "anchors": ["src/ParameterObject.cpp:actualToEngValue,engToActualValue", "src/ParameterObject.h:getEngValue,setEngMinValue,setEngMaxValue,setEngDefaultValue"]}
{"id": "C105", "title": "float, double, infinities and NaN in engineering values", "statement": "With the complete arithmetic of IEEE 754 (infinities, NaN, gradual underflow, float and double): the engineering value of an integer parameter of any width is a number, the one of C104, whenever the divisor reported by the device is not zero; a CipReal or CipLreal is read and written in its IEEE bit pattern, limits of an object without scaling hold the number that was set (the nearest float for CipReal), and with scaling every finite CipReal gives a finite engineering value within one part in 2^49 of the formula (a CipLreal too unless it is tiny or huge). Setting an integer limit stores what C104 says for every double that is a number. A larger stored integer never has a smaller engineering value. The bus voltage reported for a fault of a drive is the number read, current and frequency are the doubles nearest to a hundredth of it. A user may expect that no reply of the device makes an accessor undefined: but a divisor of zero gives NaN or an infinite value, and with a multiplier or base of zero setting any integer limit converts such a value to an integer, which is undefined; so does setting a limit to an infinite value or NaN.", "quantifier": "all types of the accessors, all stored bytes, all scaling attributes, all values of float and double, every std::pow(10, n) that is right to the last bit (or a whole number, for setting)", "why_tests_cant": "2^64 bit patterns times 2^88 scaling attributes; overflow, underflow, ties and special values", "anchors": ["src/ParameterObject.cpp:actualToEngValue,engToActualValue", "src/ParameterObject.h:getEngValue,getEngMinValue,setEngMinValue,setEngMaxValue,setEngDefaultValue,encodeValue,decodeValue", "src/vendor/ra/powerFlex525/DPIFaultParameter.cpp:processVolts,processCurrent,processFrequency", "src/cip/Types.h:CipReal,CipLreal", "src/utils/Buffer.cpp:operator<<,operator>>"]}
{"id": "C106", "title": "Upload handlers that use the file object, or throw", "statement": "A handler of beginUpload may use the file object from which it is called: no call of handleTransfers or beginUpload, at any depth, is undefined if no handler uses its argument or its captured variables after calling SyncState and none uses the object after destroying it. Its argument is the content of the file if the status is success and empty otherwise. SyncState followed by beginUpload in the handler starts the next upload, although handleTransfers returns false. An exception of the handler reaches the caller, and the object is as if the handler had returned. A user may expect that the argument stays valid until the handler returns: but SyncState in the handler destroys it, and the handler itself, and handleTransfers in the handler changes it. A user may expect that beginUpload in the handler starts the next upload: but alone it does nothing. A handler may destroy the object, but a loop that goes on while handleTransfers returns true then uses what is destroyed.", "quantifier": "all handlers, as finite sequences of such actions with handlers inside them to any depth; all devices, states of the object and histories", "why_tests_cant": "all programs a handler may be, and all answers of the device while it runs", "anchors": ["src/FileObject.cpp:beginUpload,handleTransfers,getState,~FileObject", "src/fileObject/FileObjectState.h:setState,EndUploadHandler", "src/fileObject/FileObjectUploadInProgressState.cpp:transfer", "src/fileObject/FileObjectLoadedState.cpp:initiateUpload", "src/fileObject/FileObjectState.cpp:SyncState"]}
{"id": "C107", "title": "Threads that open connections", "statement": "If only one thread at a time is inside forwardOpen, whichever managers the threads use, the serial numbers are consecutive and the identifiers are those of calls made one after the other, in every schedule; so two calls within 65535 calls of each other have different serial numbers, and different identifiers. If one thread opens all connections no lock is needed. A user may expect that threads which use different managers need no lock: but managers share counters without protection. Whenever two threads have connections to open some schedule has a data race, and even if reads and writes are atomic two calls can get the same numbers, and one manager, used by one thread, can get the same identifier for two of its connections.", "quantifier": "any number of threads, managers and calls; every schedule of the single reads and writes of the counters; all earlier values of the counters", "why_tests_cant": "all schedules, which a test cannot choose", "anchors": ["src/ConnectionManager.cpp:forwardOpen"]}
{"id": "C108", "title": "Datagrams from anywhere, and managers that share the port", "statement": "Every datagram that the system gives to the bound socket of a manager is read exactly once, by that manager, in the order of arrival: a handleConnections call that returns has read all that waited and delivered them by the routing rule of C34; if it throws, at a malformed datagram or because the receive listener throws, those after it stay for a later call, and those before it have been delivered. A user may expect that only datagrams of the target count, but the sender makes no difference at all: any history goes the same if the datagrams come from other hosts. So a stranger who knows the identifier supplies input data, and keeps a connection open whose target is silent. Also all managers are bound to the same port, and a datagram given to the socket of one manager never reaches the connection of another, which is then closed for want of data.", "quantifier": "every history of a process with any number of managers, of arrivals from any senders in any socket, and of calls that return or throw", "why_tests_cant": "all histories of arrivals, all senders, and all choices of the system between sockets of one port", "anchors": ["src/ConnectionManager.cpp:findOrCreateSocket", "src/ConnectionManager.cpp:handleConnections", "src/sockets/UDPBoundSocket.cpp:UDPBoundSocket", "src/sockets/UDPSocket.cpp:Receive", "src/sockets/BaseSocket.cpp:select"]}
{"id": "C109", "title": "What can be read from the log", "statement": "The numbers in the messages of the library can be read back: identifiers, serial numbers, sizes, sessions, parameters and numbers of faults as decimal numbers after their labels, the service of a request and the descriptor and type of a parameter as hexadecimal numbers, and the class, object and attribute of a request; all additional statuses of a device, in order; the sizes of what sockets send and receive, and their descriptors. A refused connection is logged as an error exactly when forwardOpen returns a null pointer; a connection that is returned is announced with its identifiers and the address it sends to, and is reported as existing exactly when the returned pointer is dead. forwardClose logs that the pointer was dead exactly when it sends nothing, and a warning exactly when the device does not report success. A connection closed by timeout, data that is not sent because of its size, and a datagram that is handled but reaches no listener always leave a message that the default level shows, naming the connection. A user may expect to read the general status of a device after 'error=0x', but there is the character with that code, and the number read is never the status; and the number of a file object is hexadecimal without saying so, so that it is misread for every file from 10 on. The message that an I/O connection is opened does not mean that there is one.", "quantifier": "all values in the messages; all managers in reachable states, replies, datagrams, ticks and errors of sockets", "why_tests_cant": "all numbers, replies and datagrams; a test would look at one text", "anchors": ["src/utils/Logger.h:Logger", "src/cip/MessageRouterResponse.cpp:logGeneralAndAdditionalStatus", "src/cip/GeneralStatusCodes.h:GeneralStatusCodes", "src/ConnectionManager.cpp:forwardOpen,forwardClose,findOrCreateSocket", "src/IOConnection.cpp:notifyTick,notifyReceiveData", "src/MessageRouter.cpp:sendRequest", "src/ParameterObject.cpp:ParameterObject", "src/SessionInfo.cpp:SessionInfo,~SessionInfo", "src/fileObject/FileObjectState.cpp:logWithStateName", "src/vendor/ra/powerFlex525/DPIFaultManager.cpp:handleFaultParameters"]}
{"id": "C110", "title": "Hosts as texts", "statement": "On a system with the GNU C library, the address of an end point made of a host and a port is determined by the text of the host: one to four numbers, written as in C, separated by dots, the last of which fills the bytes that are left, with nothing or white space after them. The usual text of an address gives that address, and the host of an end point made of an address, as those of discovered devices are, gives the same address and port again. A user may expect an error for any other text: but a name of a host, or any text without such numbers, gives the address 0.0.0.0 without an exception. A user may expect that zeros in front of a number do not matter: but an address written with three digits for each number is the one intended exactly if each number is less than 8 or at least 100.", "quantifier": "all texts and ports; all addresses", "why_tests_cant": "all texts; a test tries a few", "anchors": ["src/sockets/EndPoint.cpp:EndPoint"]}
{"id": "C111", "title": "Threads that log", "statement": "If level and appender are set before the threads start, threads that use the library log without a data race in whatever order their steps come, and no message is lost, doubled or changed: the appender is given the messages of each thread that pass the level, whole and in the order of the thread. If a lock is held while a message is written, the console shows whole lines, level and appender can be set at any time, and what is shown is what would be shown if the threads had acted one after the other. A user may expect whole lines without a lock: but whenever two threads have messages to show, their lines can be mixed, character by character. A user may expect to change the level or the appender while threads log: but that is a data race, and the appender can be used after its destruction.", "quantifier": "any number of threads and messages, all levels and texts, every schedule", "why_tests_cant": "all schedules, which a test cannot choose", "anchors": ["src/utils/Logger.cpp:~Logger,setLogLevel,setAppender,print", "src/utils/Logger.h:Logger"]}
{"id": "C112", "title": "UDP sockets used directly", "statement": "A program may use the UDP socket class itself. Its receiving calls take the datagrams one by one in the order of arrival; each call returns exactly as many bytes as it asked for, the beginning of the datagram and then zeros, and what is cut off is lost; an error of the system throws and leaves the end point as it was. After ReceiveFrom a reply goes to the address and port of the sender, whether the socket is made of the end point or of its host and port, whatever is received without sender in between. A user may expect to see how long a datagram is: but two datagrams are told apart only if they differ, with zeros after their ends, in the bytes asked for.", "quantifier": "all queues of datagrams with senders and errors, all sizes, all programs of such calls", "why_tests_cant": "all datagrams, sizes and orders of calls", "anchors": ["src/sockets/UDPSocket.cpp:Receive,ReceiveFrom,Send,UDPSocket", "src/sockets/EndPoint.cpp:EndPoint"]}
{"id": "C113", "title": "Listeners that are set and replaced", "statement": "Listeners of an I/O connection can be set at any time, also by a listener that is running. Each event calls the listener that was set last for it, by the program or by a listener, and none other; one that was never set does nothing. What the send listener leaves in the output data, by its argument or by setDataToSend, is sent in this very frame, if it fits the size, and stays for the next. Nothing else of the connection depends on this: every history with changing listeners has the events of one with fixed listeners. A step is defined unless a function uses what it has captured after it has replaced itself. A user may expect that a listener can replace itself and go on: but if it then uses what it has captured, that is undefined behaviour whenever it is called. A user may expect that an empty function as listener means none: but each event for it throws bad_function_call to the program, and with an empty send listener nothing is sent until another is set.", "quantifier": "all histories of ticks, datagrams, calls of setters, and functions of the user that look at captured variables, assign, set data, set listeners and throw", "why_tests_cant": "all orders in which listeners are set and called, also by each other", "anchors": ["src/IOConnection.cpp:IOConnection,setReceiveDataListener,setSendDataListener,setCloseListener,setDataToSend,notifyTick,notifyReceiveData", "src/IOConnection.h:SendDataHandle,ReceiveDataHandle,CloseHandle"]}
{"id": "C114", "title": "Copies of a connection manager", "statement": "A connection manager can be copied and assigned, and a move does the same. A manager that made the socket it uses, or that has none yet, behaves in every call as if nothing had been copied, and destroying other managers does not affect how it handles connections. What happens to a connection that several managers share is one history of one object, which exists as long as the program has a strong pointer to it or some manager has it. A user may expect that a copy is as good as the original, as when a vector of managers grows: but if the manager that made the socket was destroyed, the first datagram of any connection is undefined behaviour. A user may expect that connections opened through a copy receive data: but if the copy uses the socket of the original and never made one, they never do, whatever arrives and whatever is done afterwards, unless something is assigned to a manager that made a socket. An assignment sends nothing and calls nothing, and a connection that only the manager assigned to had is gone. A user may expect that managers can be swapped or sorted: but after a swap of two managers that made their sockets, serving one of them gives data to none of the connections it has now, unless it had it before. A user may expect that a connection closed with one manager is closed: but every other manager that has it keeps it alive and goes on sending for it. A user may expect that the close listener is called once: but it is called once for every manager that has the connection.", "quantifier": "all histories in which managers are constructed, copied, assigned, destroyed and called in any order, with everything that can arrive", "why_tests_cant": "all orders of copies, assignments, destructions and calls", "anchors": ["src/ConnectionManager.h:ConnectionManager", "src/ConnectionManager.cpp:findOrCreateSocket,handleConnections,forwardClose"]}
{"id": "C115", "title": "Copies of a session", "statement": "A session can be copied, and a move copies it. As long as no object of a connection is used or destroyed after another one of that connection was destroyed, all copies are the same session: a request of any of them is a request with the registered handle on that connection, and nothing of another session is sent there. Destroying one ends that session, and closes that descriptor and no other. A user may expect that a copy is still good after the original was destroyed, as when a vector of sessions grows or a session is returned through a copy: but its next request throws, and no request of it ever reaches its device again. A user may expect that it does no harm either: but when the number of the closed descriptor was given out again, the requests of the copy go, with the old handle, to the other device, and destroying the copy ends a session at the other device and closes the connection of the other session, which was never destroyed, or closes a file of the program.", "quantifier": "all histories in which sessions are constructed, copied, destroyed and used, and other descriptors opened and closed, in any order, with everything that devices can send", "why_tests_cant": "all orders of copies, destructions and requests, and all reuses of descriptors", "anchors": ["src/SessionInfo.h:SessionInfo", "src/SessionInfo.cpp:~SessionInfo,sendAndReceive", "src/sockets/TCPSocket.cpp:~TCPSocket,Send,Receive", "src/sockets/BaseSocket.cpp:Shutdown,Close"]}
{"id": "C116", "title": "Data that are lost, repeated or out of order", "statement": "While a connection is served and stays open, its receive listener is called once for each datagram of the target that arrives, in the order of arrival, with the header, the sequence count and the data that the target sent in it: datagrams that are lost are not announced, and none is held back, sorted or dropped. If the connection has a sequence count, a listener that drops what is not newer than the last it kept is left with exactly the data that were the newest when they came, each once, as long as each number is within 2^15 of the newest before it. A user may expect that the library hands over only newer data: but old data that arrive late, or again, are handed over as the latest, and the 32-bit sequence number of the datagrams makes no difference to anything. A user may expect that a connection whose target has stopped is closed: but one old datagram that keeps arriving keeps it open for ever.", "quantifier": "all histories of a manager, all targets and what they send, all losses, repetitions and orders of datagrams, with datagrams for other connections in between", "why_tests_cant": "all orders and losses, and any number of datagrams", "anchors": ["src/IOConnection.cpp:notifyReceiveData", "src/ConnectionManager.cpp:findOrCreateSocket,handleConnections"]}
{"id": "C117", "title": "Byte order of the host", "statement": "Whatever the byte order of the host, the system is given the port and the address that the program asked for, and the library takes port and address right from what the system reports. On a host whose address family has two bytes, an end point that was written to a buffer is read back the same. On a little-endian host the socket address item that is written is the one of the specification, and one of the specification is read with its port and its address. A user may expect this of a big-endian host too: but there the item is written with family, port and address each the wrong way round, and a correct one of a device is taken for the port with swapped bytes at the reversed address, so that data go elsewhere, except when port and address read the same backwards. A user may expect that an end point read from a buffer can be used with a socket on systems with a one-byte address family, as macOS: but it has family 0 even if the same host wrote it, and on a little-endian one whatever was in the buffer.", "quantifier": "all ports, addresses, both byte orders, both layouts of addresses, and all buffers around the item", "why_tests_cant": "all ports and addresses, on hosts on which the tests are not run", "anchors": ["src/utils/Buffer.cpp:operator<<(EndPoint),operator>>(EndPoint)", "src/sockets/EndPoint.cpp:EndPoint"]}
{"id": "C118", "title": "Assignment of sessions", "statement": "A session can be assigned to another one. That sends nothing and closes nothing; from then on a request of the session assigned to is that of the other one, and all further sessions are as before. To assign a session to itself or to a copy of it changes nothing. A user may expect that the session which is assigned to is ended, as by a type that owns its connection: but if it was the only object of its connection, then whatever the program does afterwards, the device is never told that the session has ended, and the descriptor stays open until the program ends. A user may expect to connect again with session = SessionInfo(host, port): but the new session is ended and its connection closed as soon as the temporary is destroyed, and every request of the session that was assigned to throws.", "quantifier": "all histories in which sessions are constructed, copied, assigned, destroyed and used, and other descriptors opened and closed, in any order, with everything that devices can send", "why_tests_cant": "all that a program does after the assignment, and all histories before it", "anchors": ["src/SessionInfo.h:SessionInfo", "src/SessionInfo.cpp:~SessionInfo,sendAndReceive", "src/sockets/TCPSocket.cpp:~TCPSocket", "src/sockets/BaseSocket.h:BaseSocket"]}
{"id": "C119", "title": "How much a peer can make the library hold", "statement": "Whatever a device sends: a packet that a session returns has at most 65535 bytes of data; a reply of the message router, with additional status and additional items, has at most 65515; a request that returns or throws has taken at most 65559 bytes of what arrived; a receive listener is given at most 8182 bytes; one call of handleTransfers adds at most 65511 bytes to what the file object holds, and what the handler is given is held by the object and shorter than 4 GiB; a discovery returns at most 119 devices for each datagram it received. A user may expect that an upload is bounded by the size that was announced for the file: but a device that has always one more packet makes the object hold one more packet with each call, each call returns true, and the handler is told nothing, for any announced size and any number of calls. A user may expect that a discovery lists each device once: but one device that answers n times is listed n times, for any n.", "quantifier": "all data of the device in all pieces, all requests, all histories of a manager, all numbers of calls and of answers, all ways in which reads outside of a buffer may go", "why_tests_cant": "all that a device may send, and any number of packets", "anchors": ["src/SessionInfo.cpp:sendAndReceive", "src/MessageRouter.cpp:sendRequest", "src/ConnectionManager.cpp:findOrCreateSocket,handleConnections", "src/fileObject/FileObjectUploadInProgressState.cpp:transfer", "src/DiscoveryManager.cpp:discover"]}
{"id": "C120", "title": "When memory runs out: sessions and file objects", "statement": "While there is memory requests, uploads and the ends of sessions do what they do without this question. When there is none, calls throw std::bad_alloc. A request on a session that fails before it was sent has done nothing, and one that fails after the whole reply was taken leaves the session in step: later requests get their own replies. If beginUpload, handleTransfers or SyncState throws, the file object is as before, with one exception; if the device sends a packet again when asked again, a program that calls handleTransfers again whenever it threw gets the whole file, exactly once, after at most as many calls as there are packets and failures. A user may expect a session to be usable after the exception: but if memory runs out after the request was sent, every later request gets the reply to the one before; if it runs out after the header of the reply was taken, the data of the reply is taken for the next reply, so that whoever determines the data determines what the next request returns. A user may expect objects to be destroyed without memory: but the end of a session and of a file object that has begun an upload terminate the process. A user may expect that a file is reported as uploaded only if it was sent: but if memory runs out when a last packet of the wrong size has arrived, and the program tries again, the packet is taken twice, and the handler is called with success and a file that the device does not have.", "quantifier": "all places at which memory can run out, any number of times, all requests, replies, segmentations of the stream, devices, files and numbers of calls", "why_tests_cant": "tests do not make allocations fail, and never at each place of all histories", "anchors": ["src/SessionInfo.cpp:sendAndReceive,~SessionInfo", "src/sockets/TCPSocket.cpp:Receive", "src/MessageRouter.cpp:sendRequest", "src/fileObject/FileObjectUploadInProgressState.cpp:transfer", "src/fileObject/FileObjectLoadedState.cpp:initiateUpload", "src/fileObject/FileObjectState.cpp:SyncState,~FileObjectState,getStateName"]}
{"id": "C121", "title": "When memory runs out: connections", "statement": "Wherever memory is missing in a call to a connection manager, the call is what it is with enough memory, or it throws std::bad_alloc. A call that throws has opened, closed and removed no connection; the connections the manager knows, the pointers of the user and the negotiated values are as before, and at most one bound socket is new; so in all histories each connection the manager knows exists and is known under its identifier. forwardClose, setDataToSend and handleConnections that fail at their first allocation have done nothing and can be called again; forwardOpen that fails at the request has sent nothing. A datagram for which there is no memory is lost, as if the receive call had failed. Nothing is sent by a tick that fails, and the numbers of a connection's datagrams always go forward: by the calls of the send listener, and at most one more for each tick that failed before the listener was called. A user may expect that the two numbers of a datagram stay equal: but they differ after memory was missing for an address item. A user may expect to be told once that a connection is closed: but if memory is missing to note that it is to be removed, the next call tells it again. A user may expect that a connection which could not be opened is not open: but if memory is missing at any place after the reply, the device has it, the manager does not know it, and the program has nothing to close it with.", "quantifier": "all histories of a manager, with any place in any call at which memory is missing, any number of times, all replies, datagrams, clock readings and listeners", "why_tests_cant": "tests do not make allocations fail, and never at each place of all histories", "anchors": ["src/ConnectionManager.cpp:forwardOpen,forwardClose,handleConnections,findOrCreateSocket", "src/IOConnection.cpp:notifyTick,notifyReceiveData,setDataToSend"]}
{"id": "C122", "title": "When memory runs out: discovery and objects", "statement": "Wherever memory is missing in a discovery, in the construction of an identity, parameter or fault object, in updateValue, in a request of a Yaskawa drive or in handleFaultParameters, the call is what it is with enough memory, or it throws std::bad_alloc. A discovery that throws has closed its socket, and has sent its request once or not at all. A constructor that throws has made some of its requests in their order. updateValue that throws leaves the value as it was. handleFaultParameters that throws has told the listener the first of the faults that it would have told; no fault is lost: a drive still has all of its faults, or all of them were told before the drive was told to forget them; a program that calls it again whenever it threw gets all faults, in order, in the last of the calls. A user may expect to be told each fault once: but the first faults are told again by the next call. A user may expect a discovery to return the devices that have answered: but they are lost if memory is missing afterwards.", "quantifier": "all places at which memory can be missing, any number of times, all devices, replies, datagrams, errors of sockets and lists of faults", "why_tests_cant": "tests do not make allocations fail, and never at each place of all calls", "anchors": ["src/DiscoveryManager.cpp:discover,makeSocket", "src/sockets/UDPSocket.cpp:Receive", "src/IdentityObject.cpp:IdentityObject", "src/ParameterObject.cpp:ParameterObject,updateValue", "src/vendor/ra/powerFlex525/DPIFaultManager.cpp:handleFaultParameters,handleFaultObjects", "src/vendor/yaskawa/mp3300iec/Yaskawa_MessageRouter.cpp:sendRequest"]}
{"id": "C123", "title": "When memory runs out: the log", "statement": "Wherever memory is missing while a message of the library is written, at most one text is handed to the appender in force, and it is the first part of the text that it would be with enough memory; level, appender and other loggers are as before. With enough memory the message is that of C109. A message that the level hides is written to no one, and it throws std::bad_alloc only if there is no memory for a text that is made for it; so with INFO messages hidden, a request is that of C120, or throws before it is sent. Memory that is missing for the insertions does not end the process. A user may expect that a call that finds no memory throws: but for every message of the library that is shown, if there is no memory for the copy of its text, the process ends; so does the first message on the console if there is none for the names of the levels; at the default level this is so for every request. A user may expect that the numbers in the log are right: but a number can be cut after any of its digits, with nothing to tell.", "quantifier": "all messages of the library, all places at which memory can be missing, all states of the log, all requests and sessions", "why_tests_cant": "tests do not make allocations fail, and never at each place of all messages", "anchors": ["src/utils/Logger.cpp:~Logger,print", "src/utils/Logger.h:operator<<", "src/MessageRouter.cpp:sendRequest"]}
{"id": "C124", "title": "The log and the errors of sockets", "statement": "The messages of sockets are hidden at the default level, and those about what is sent and received at all levels but TRACE. With any level but TRACE, and with any appender that leaves errno alone, a discovery returns or throws what it does without the log. The messages of a discovery are the opened socket, the request of 24 bytes, one for each answer with its size, one for the call that failed, and the closed socket. A receive call of a TCP socket never depends on the log; the sizes in its messages add up to the bytes it has taken, and it warns exactly when the peer has closed the connection before all bytes were there, telling how many there were. A user may expect that the appender cannot change what calls do. But a failing receive call of a UDP socket reads errno after its message: at level TRACE it throws the code that the appender has left. So whatever devices have answered, a discovery throws instead of returning them if the appender changes the errno of the timeout that ends it; and an error of the socket is hidden if the appender leaves the code of a timeout. The code of a request that is sent in part is the one that an earlier call has left.", "quantifier": "all levels, all appenders that do not throw and all changes they make to errno, all answers, errors and streams", "why_tests_cant": "all appenders and all errors; a test has one appender that leaves errno alone", "anchors": ["src/sockets/UDPSocket.cpp:Receive,Send,UDPSocket,~UDPSocket", "src/sockets/TCPSocket.cpp:Receive", "src/DiscoveryManager.cpp:discover", "src/utils/Logger.cpp:~Logger", "src/sockets/BaseSocket.cpp:getLastError"]}
{"id": "C125", "title": "The log of file objects", "statement": "In all histories of a file object the log tells its states: each new state starts before the one it replaces stops, the last one is the state that the object reports, and after the destruction each has stopped as often as it has started, also when the constructor throws. The messages about requests are the requests sent, all and in order. There is one ERROR for each call of a handler with a failure, in order, and it tells that failure. An object whose file does not exist or is empty sends nothing, calls no handler, and warns. Synchronization warns exactly when the device says that an upload is going on. Each packet is told with its type, whatever becomes of it. A user may expect that an upload that does not succeed leaves an ERROR or a call of the handler: but an upload begun while another is going on is dropped with an INFO message, handleTransfers of a loaded file says nothing, and a call that throws leaves neither. A user may expect to learn why a device refuses to tell the state of a file: but the status is told neither in the log nor in the exception.", "quantifier": "all histories of calls to a file object, all devices, replies and exceptions, all files", "why_tests_cant": "all histories and devices; tests look at few messages", "anchors": ["src/FileObject.cpp:FileObject,beginUpload,handleTransfers", "src/fileObject/FileObjectState.cpp:logWithStateName,getStateName,SyncState", "src/fileObject/FileObjectState.h:setState", "src/fileObject/FileObjectUploadInProgressState.cpp:transfer,initiateUpload", "src/fileObject/FileObjectLoadedState.cpp:initiateUpload,transfer"]}
{"id": "C126", "title": "Reading the open connections off the log", "statement": "From the messages 'Open IO connection', 'exists', 'Close connection' and 'timed out' a reader can tell which connections a manager has open, at any time of any history of calls, and what hasOpenConnections answers; the default log level shows all that is needed. This holds if the devices repeat no serial number and no call throws after such a message. Without this it fails: a forwardOpen without a socket, a forwardClose whose request throws, a listener that throws when a connection times out, and two connections with one serial number mislead the reader; so does a log level below INFO.", "quantifier": "all histories of calls of a manager with any replies, arrivals, clocks and listeners, cut off at any call; all log levels", "why_tests_cant": "The messages are spread over calls and handlers; whether they add up to the state of the manager is a question about all histories.", "anchors": ["src/ConnectionManager.cpp: forwardOpen, forwardClose, handleConnections, hasOpenConnections", "src/IOConnection.cpp: notifyTick, notifyReceiveData", "src/utils/Logger.h: Logger"]}
{"id": "C127", "title": "Threads that use one connection", "statement": "While one thread calls handleConnections, which sends the output data of a connection when it is due, another may call setDataToSend with new data of any size. If the program puts a lock around the calls, the calls behave as if one thread made them in the order in which they ended: what is sent is always exactly the data set last, there is no data race, and no one uses bytes that have moved. The library itself takes no lock. Without one, if all data have one size, each byte that is sent is a byte that stood at that place in the first data or in data of some call, and the size is kept; but there is a data race in some schedule whenever data are about to be sent, and each mixture of old and new bytes is sent in some schedule. With data of another size there is a schedule in which the sending thread goes on with bytes that have moved.", "quantifier": "All connections, data, programs of any number of threads, and schedules of the reads and writes of single bytes; all masks of a mixture", "why_tests_cant": "A race shows in few schedules, and a test sees those that the machine happens to take; that no schedule of locked calls tears data is a claim about all of them.", "anchors": ["src/IOConnection.cpp: setDataToSend, notifyTick, notifyReceiveData"]}
{"id": "C128", "title": "The Windows build", "statement": "What users rely on holds of the Windows build too: TCP and bound UDP sockets are opened and closed without leaks and under the right number, the timeout of connecting is kept, discovery finds the same devices as on unix and takes as long, the data of connections are handled in the same way, and errors have the text of the system without line ends. This holds if numbers of sockets are less than 2^31 and no datagram is longer than the buffer (504 bytes for discovery, 8192 for connections) and the receive timeout is not negative and less than 2^32 ms and other times to wait are less than 2^31 s and a manager has at most 64 sockets. It fails otherwise: sockets after the 64th are never read; a time to wait of 2^31 s or more, less than 2^32 s, becomes less than a second; a socket with bit 31 set is taken for a failure and leaks; one datagram that is too long, from whomever, ends discovery with an exception that loses the devices found, or ends handleConnections before any connection has been looked at; and the timeout of connecting has no effect, because the socket is left blocking.", "quantifier": "All results of the calls of Winsock, all socket numbers, timeouts, arrivals of datagrams, states of a manager, and texts of errors", "why_tests_cant": "The tests do not run on Windows, and these are claims about all results of the system and all datagrams of strangers.", "anchors": ["src/sockets/TCPSocket.cpp: TCPSocket, ~TCPSocket", "src/sockets/BaseSocket.cpp: Close, Shutdown, setRecvTimeout, makePortableInterval", "src/sockets/UDPBoundSocket.cpp: UDPBoundSocket", "src/sockets/Platform.cpp: win32ErrorCategory", "src/sockets/Platform.h: EIPSCANNER_SOCKET_ERROR", "src/DiscoveryManager.h: DISCOVERY_SOCKET_RECEIVE_END_ERROR_CODE", "src/sockets/UDPSocket.cpp: ReceiveFrom"]}
{"id": "C129", "title": "Threads that share a connection manager", "statement": "Several threads use one connection manager: one calls handleConnections again and again, others open and close connections. If the program puts a lock around each call, then in every schedule the calls give what they would give one after the other in the order in which they ended: each handleConnections ticks exactly the open connections, in the order of identifiers, and removes those that ask for it; a connection is opened unless its identifier is taken; a close removes exactly the connection it was given, or finds it closed already. There is no data race, no iterator that leads nowhere, and the assertion in forwardClose holds. The library takes no lock. Without one there is a data race in some schedule whenever one thread handles and another opens; undefined behaviour when one closes the connection that another is about to tick; a failed assertion when two close one connection; and a close can remove a connection that was opened later, which no call was told to close.", "quantifier": "All tables, any number of threads with any programs, all replies and timeouts, all schedules of the accesses of the table", "why_tests_cant": "All schedules, which a test cannot choose.", "anchors": ["src/ConnectionManager.cpp: forwardOpen, forwardClose, handleConnections"]}
{"id": "C130", "title": "Peers that are gone do not kill the program", "statement": "Sending to a peer that has closed the connection never kills the program by SIGPIPE, whatever sockets are opened and destroyed and whenever peers go, on every unix system that defines MSG_NOSIGNAL or SO_NOSIGPIPE; where neither is defined, any such send kills it. The program does not learn from the send that the peer is gone: it returns as if all had been sent. Open descriptors without an object are exactly as many as the constructors of which setsockopt(SO_NOSIGPIPE) failed: each of those throws and leaks its descriptor.", "quantifier": "All builds with or without the two macros, all histories of opening, sending, closing by peers and destroying, all data", "why_tests_cant": "The two macros are a matter of the system on which it is built, and when peers go is a matter of all histories.", "anchors": ["src/sockets/TCPSocket.cpp: TCPSocket, Send", "src/sockets/UDPSocket.cpp: UDPSocket, Send"]}
