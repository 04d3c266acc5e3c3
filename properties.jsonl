{"id": "C01", "title": "Integer codec round trip", "statement": "For every Go int n, EncodeInteger(n) yields a string that DecodeInteger maps back to exactly n, with no error and no panic.", "quantifier": "every 64-bit signed integer", "why_tests_cant": "2^64 inputs; a test samples a handful.", "anchors": ["misc/beancode.go: EncodeInteger, DecodeInteger, innerDecodeInteger"]}
{"id": "C02", "title": "Integer decoder accepts exactly one lenient grammar and never panics", "statement": "DecodeInteger(src) succeeds with n iff src is 'i' body 'e' where body is an optional sign followed by at least one decimal digit, body does not start with '-0', body does not start with '0' unless it is exactly '0', and the denoted number n fits in an int64. On every other byte string it returns WrongDecodeParamErr; it never panics. (It is therefore not canonical: 'i+5e' and 'i+05e' are accepted.)", "quantifier": "every byte string", "why_tests_cant": "The input space is infinite; the accepted language is a claim about all of it.", "anchors": ["misc/beancode.go: DecodeInteger, innerDecodeInteger"]}
{"id": "C03", "title": "String codec round trip", "statement": "For every byte string s, DecodeString(EncodeString(s)) returns s if and only if s contains no ':'; for every s that contains one, it returns an error.", "quantifier": "every byte string", "why_tests_cant": "Needs every string, including ones with separators and any length.", "anchors": ["misc/beancode.go: EncodeString, DecodeString"]}
{"id": "C04", "title": "Dictionary/list codec round trip for every map iteration order", "statement": "For every nested value built from ints, strings, Lists and Dicts, and for every order in which Go's runtime iterates the maps while encoding, EncodeDict/EncodeSlice succeed and DecodeDict/DecodeSlice of the result yield a value equal (as Go maps and slices) to the original.", "quantifier": "every encodable value of any depth and size, and every map iteration order", "why_tests_cant": "Map iteration order is chosen randomly by the runtime at every nesting level, and values nest without bound.", "anchors": ["misc/beancode.go: EncodeDict, EncodeSlice, encodeItem, DecodeDict, DecodeSlice"]}
{"id": "C05", "title": "Decoding a dictionary in front of arbitrary payload bytes", "statement": "For every encodable dictionary d and every byte string rest, DecodeDictNoLimit(EncodeDict(d) ++ rest) returns d and the exact position where rest begins.", "quantifier": "every dictionary and every suffix, every iteration order", "why_tests_cant": "The suffix is attacker-controlled binary (torrent pieces) and may itself look like bencode.", "anchors": ["misc/beancode.go: DecodeDictNoLimit, innerDecodeDict"]}
{"id": "C06", "title": "The dictionary decoder accepts exactly the lenient bencode grammar", "statement": "DecodeDictNoLimit(src) succeeds with dictionary d and end position n <= len(src) iff the first n bytes of src form a bencoded dictionary (any key order, duplicate keys allowed with the last one winning, leading zeros allowed in string lengths, '+' allowed in integers) denoting d. If it succeeds with n > len(src), the input was truncated: exactly n-len(src) closing 'e' bytes are missing, and src followed by these bytes is a bencoded dictionary denoting d. Every other input is rejected with an error, unless it panics as C10 says.", "quantifier": "every byte string", "why_tests_cant": "Both directions range over all byte strings, in particular over all malformed network packets.", "anchors": ["misc/beancode.go: DecodeDictNoLimit, innerDecodeDict, innerDecodeSlice, innerDecodeString, decodeItem"]}
{"id": "C07", "title": "List decoder accepts only complete lists", "statement": "DecodeSlice(src) succeeds with l iff src, as a whole, is a bencoded list in the lenient grammar denoting l; truncated lists and trailing bytes are rejected with an error.", "quantifier": "every byte string", "why_tests_cant": "All malformed inputs are quantified over.", "anchors": ["misc/beancode.go: DecodeSlice, innerDecodeSlice"]}
{"id": "C08", "title": "Whole-input dictionary decoding", "statement": "DecodeDict(src) returns a non-nil dictionary d without error iff src is a bencoded dictionary denoting d, or src ends in 'e' and is such a dictionary with one or more closing 'e' bytes cut off directly behind a closing 'e' or an opening bracket; when the input ends in 'e' and bytes are left over after a dictionary it returns a nil dictionary and a nil error, and it does so in no other case; every remaining input is rejected with an error (or panics as C10 says). (The property a caller wants - error on every input that is not a complete dictionary - is false: two concrete inputs are shown.)", "quantifier": "every byte string", "why_tests_cant": "All inputs, including truncated and over-long ones.", "anchors": ["misc/beancode.go: DecodeDict"]}
{"id": "C09", "title": "Decoders terminate on every input", "statement": "On every byte string, every decoder (DecodeInteger, DecodeString, DecodeSlice, DecodeDict, DecodeDictNoLimit) terminates: each nested decoding step consumes at least one byte, so recursion depth and number of steps are bounded by the input length.", "quantifier": "every byte string", "why_tests_cant": "Non-termination on some input cannot be excluded by running finitely many inputs.", "anchors": ["misc/beancode.go: decodeItem, innerDecodeSlice, innerDecodeDict"]}
{"id": "C10", "title": "When decoding can panic", "statement": "DecodeDict and DecodeSlice never panic on an input in which no run of decimal digits is longer than 18; DecodeInteger never panics at all. In general (unterminated integer at the end of the input for DecodeDictNoLimit; a string length close to 2^63 for all of them; a digit-only input for DecodeString) decoding can only fail with a Go runtime panic, never with an application panic, and concrete inputs show that each of these happens. Exactly: DecodeDict, DecodeDictNoLimit and DecodeSlice panic iff, reached behind complete values only, there is an integer without closing e (unless a rejected '-0' or leading zero comes first; DecodeDict and DecodeSlice check the last byte and so never get there) or a string whose length fits into 63 bits while its end position does not; DecodeString panics iff the input is the decimal text, sign allowed, of a 64-bit number and has at least two characters.", "quantifier": "every byte string", "why_tests_cant": "Absence of panics is a claim about all inputs.", "anchors": ["misc/beancode.go: DecodeDict, DecodeSlice, DecodeString, innerDecodeString, innerDecodeInteger"]}
{"id": "C11", "title": "Encoded values are prefix-free and unambiguous", "statement": "If one encoding of a value v is a prefix of an encoding of a value w, the two byte strings are equal and v and w are equal as Go values; in particular two different values never share an encoding.", "quantifier": "all pairs of encodable values and all iteration orders", "why_tests_cant": "Quantifies over pairs of values of unbounded size.", "anchors": ["misc/beancode.go: EncodeDict, EncodeSlice, encodeItem"]}
{"id": "C12", "title": "Encoder rejects unsupported values", "statement": "EncodeDict/EncodeSlice return a string iff every value reachable in the argument is an int, a string, a non-nil List or a non-nil Dict; otherwise, for every iteration order, the call fails (error or panic) and yields no output. Which of the two it is depends on the first unsupported value met: a panic for a nil interface or an int/string of a named type, an error for any other type and for a nil List or Dict.", "quantifier": "every Go value tree, every iteration order", "why_tests_cant": "The argument is an arbitrary interface{} tree of unbounded size.", "anchors": ["misc/beancode.go: EncodeDict, EncodeSlice, encodeItem"]}
{"id": "C13", "title": "Typed dictionary access", "statement": "GetInteger/GetString/GetList/GetDict return exactly the stored value when the key is present with that dynamic type, and otherwise panic with a *misc.Error (code 201) that callers can recover from; GetIntegerOrDefault/GetStringOrDefault never panic and return the stored value if it has the right type and the default otherwise; Exist reports presence. GetValOrDefault returns nil, not the default, for an absent key. A stored nil List or Dict is returned as such. The error's text names the key and whether the value is missing or of the wrong type.", "quantifier": "every dictionary and key", "why_tests_cant": "All contents that a remote peer may put in a dictionary.", "anchors": ["misc/types.go: Dict.GetInteger, Dict.GetString, Dict.GetList, Dict.GetDict, Dict.GetIntegerOrDefault, Dict.GetStringOrDefault, Dict.GetValOrDefault, Dict.Exist"]}
{"id": "C14", "title": "List access", "statement": "List.GetX(i) returns the element exactly when 0 <= i < len and the element has the requested type; a wrong type panics with *misc.Error, an index out of range with a Go runtime panic. ContainsString(t) on a list of strings is true iff some element equals t up to strings.EqualFold.", "quantifier": "every list, index and target", "why_tests_cant": "All list contents and indices.", "anchors": ["misc/types.go: List.GetVal, List.GetInteger, List.GetString, List.GetList, List.GetDict, List.Exist, List.ContainsString"]}
{"id": "C15", "title": "Compact node info round trip", "statement": "parseNodeInfo(joinNodeInfos(ns)) returns ns for every list of nodes with 20-byte ids, 4-byte IPs and 16-bit ports; joinNodeInfos(parseNodeInfo(s)) returns s for every string whose length is a multiple of 26; and parseNodeInfo never panics on any string, ignoring the trailing len mod 26 bytes. IPs in the 16-byte form of an IPv4 address come back in the 4-byte form; a node with any other IP is written in 22 bytes and makes one node fewer come back.", "quantifier": "every node list / every byte string", "why_tests_cant": "All lists and all strings.", "anchors": ["dht/node.go: joinNodeInfos, parseNodeInfo"]}
{"id": "C16", "title": "Compact peer info round trip", "statement": "parsePeerInfo(joinPeerInfos(as)) returns as for every list of IPv4 addresses (16-byte forms come back in the 4-byte form); joinPeerInfos(parsePeerInfo(vs)) returns vs for every list of 6-byte strings. parsePeerInfo panics with *misc.Error if it reaches an element that is not a string, and with a runtime panic if it reaches a string whose byte conversion has capacity below 6.", "quantifier": "every address list / every value list", "why_tests_cant": "All lists a remote peer may send.", "anchors": ["dht/node.go: joinPeerInfos, parsePeerInfo"]}
{"id": "C17", "title": "Transaction id uniqueness window", "statement": "Among any 65536 consecutive calls to TxIdGenerator.Next, from any number of goroutines in any interleaving, all returned ids are distinct 4-character lower-case hex strings; the sequence has period exactly 65536, so ids are reused afterwards.", "quantifier": "every initial value, every interleaving, every history", "why_tests_cant": "Needs all schedules and wrap-around of the counter.", "anchors": ["dht/node.go: TxIdGenerator.nextVal, TxIdGenerator.Next"]}
{"id": "C18", "title": "Prefix length is the length of the common bit prefix", "statement": "solvePrefixLen(a,b) equals the number of leading bits on which a and b agree (over the shorter of the two); it is symmetric, bounded by 8*min(len), and equals that bound iff the shorter is a prefix of the other; for equal-length ids a longer common prefix with a target means a strictly smaller XOR distance to it.", "quantifier": "all pairs/triples of byte strings", "why_tests_cant": "All id pairs.", "anchors": ["dht/routetable.go: solvePrefixLen", "misc/bits.go: Xor"]}
{"id": "C19", "title": "Route table structural invariant", "statement": "After any sequence of AddNode calls on NewRouteTable(host,k,capacity): no operation panics, every bucket holds at most k nodes, at most capacity+1 buckets exist, no two stored nodes in one bucket are Equals, and every stored node sits in the bucket given by min(common prefix with host, last bucket index).", "quantifier": "every sequence of AddNode calls, every k >= 1 and capacity", "why_tests_cant": "Invariant over unbounded histories including recursive splits.", "anchors": ["dht/routetable.go: NewRouteTable, RouteTable.AddNode, addNode, addNodeWithsplitBucket, Bucket.Add"]}
{"id": "C20", "title": "Nodes are never evicted", "statement": "Once a node (including the host node) is in the route table it stays in it through every later AddNode call, across bucket splits.", "quantifier": "every history of AddNode calls", "why_tests_cant": "Splits redistribute nodes; only an induction shows none is lost.", "anchors": ["dht/routetable.go: addNodeWithsplitBucket, addNode"]}
{"id": "C21", "title": "AddNode's result tells whether the node is stored", "statement": "If AddNode returns an error the set of stored nodes is unchanged apart from redistribution. If AddNode returns nil the node is stored (or one Equals to it), except when the call split the last bucket: then nil is returned although the node may have been dropped (a concrete history shows this).", "quantifier": "every reachable table and node", "why_tests_cant": "Requires every reachable table shape.", "anchors": ["dht/routetable.go: AddNode, addNode, addNodeWithsplitBucket"]}
{"id": "C22", "title": "Size accounting", "statement": "Size() is always at least the number of stored nodes; it is exactly the number of stored nodes plus the number of AddNode calls that returned nil for an already stored node in a non-full bucket, hence exact in histories without duplicates.", "quantifier": "every history of AddNode calls", "why_tests_cant": "Counter vs contents over unbounded histories with splits and failed inserts.", "anchors": ["dht/routetable.go: Size, addNode, addNodeWithsplitBucket, nodeCount"]}
{"id": "C23", "title": "Find is sound and complete up to case folding", "statement": "Find(id) never panics; if it returns a node, that node is stored and its id is EqualFold to id; if some stored node has exactly this id, Find returns a node (whose id is EqualFold to id). It does not guarantee an exact id match: distinct binary ids that differ in an invalid UTF-8 byte or in letter case are confused (concrete table shown).", "quantifier": "every reachable table and id", "why_tests_cant": "All tables and all binary ids.", "anchors": ["dht/routetable.go: Find", "dht/node.go: NodeInfo.Equals"]}
{"id": "C24", "title": "FindClosest result", "statement": "FindClosest(id,k) returns stored nodes only, starting with the bucket of id and going to lower buckets; it returns either more than k nodes or all nodes of these buckets. When id falls into the last bucket (in particular for the host's own id), every returned node is strictly closer in XOR distance to id than every stored node of a bucket not returned. In general this fails, because buckets above the one of id are skipped (concrete table shown).", "quantifier": "every reachable table, id and k", "why_tests_cant": "Distance ordering over all ids and tables.", "anchors": ["dht/routetable.go: FindClosest, solveMaxPreLen"]}
{"id": "C25", "title": "Bucket is safe under concurrent Add", "statement": "For any number of goroutines calling Add/Exist/All/Size/Full on one bucket in any interleaving of their lock sections: size never exceeds the capacity, no accepted node is overwritten or lost, the accepted nodes are exactly those whose Add returned true, in lock order, and a slice returned by All never changes afterwards. A rejected Add means the bucket is full. Every Exist/All/Size/Full answers what is right for the nodes accepted up to some moment. There is no deadlock, and every call returns after at most ten of its own steps.", "quantifier": "every interleaving of any number of goroutines", "why_tests_cant": "Schedules are unbounded.", "anchors": ["dht/routetable.go: Bucket.Add, Bucket.Full, Bucket.All, Bucket.Exist"]}
{"id": "C26", "title": "Middleware chain runs every handler exactly once, in order", "statement": "For every chain of handlers, each of which may call ctx.Next any number of times at any point, one ctx.Next() on a fresh context starts handlers 0..n-1 exactly once each, in order; a middleware that does not call Next cannot stop the later ones; the only way to cut the chain is a panic, and then exactly a prefix has been started.", "quantifier": "all chains and all handler behaviours (finite handler programs)", "why_tests_cant": "Handlers are arbitrary code interacting through a shared index.", "anchors": ["dht/krpc/middleware.go: RpcContext.Next, NewReqContext", "dht/krpc/server.go: doRequestHandle, doResponseHandle"]}
{"id": "C27", "title": "Every well-formed query is answered exactly once", "statement": "For every inbound packet that decodes to a dictionary with y='q' and string fields t and q, handled by the four default handlers, exactly one datagram is sent, to the packet's source address, decoding to a dictionary with the same t and y either 'r' (carrying our node id) or 'e' (a list of code 203 and a message). It is 'r' exactly when q is one of the four exact method names, 'a' is a dictionary with a 20-byte string id and the method's own required arguments are present with the right types.", "quantifier": "every packet and every server state", "why_tests_cant": "All inbound byte strings.", "anchors": ["dht/krpc/server.go: recvPacketHandle, requestHandle", "dht/requesthandler.go"]}
{"id": "C28", "title": "Non-queries are never answered", "statement": "A packet that does not decode, has no y, a y other than q/r/e, or y='e' never causes any datagram to be sent nor any change of server state; a packet with y='r' never causes a reply to its sender as such - only find_node queries to nodes it lists.", "quantifier": "every packet and state", "why_tests_cant": "All inbound byte strings.", "anchors": ["dht/krpc/server.go: recvPacketHandle, responseHandle, responseErrHandle"]}
{"id": "C29", "title": "No packet can crash the server", "statement": "For every byte string received from the network and every server state, handling the packet never lets a panic escape the handler, and hands the packet's buffer back to the pool exactly once.", "quantifier": "every packet and state", "why_tests_cant": "All inbound byte strings, including those that make the decoder panic.", "anchors": ["dht/krpc/server.go: recvPacketHandle"]}
{"id": "C30", "title": "Responses are matched by transaction id only", "statement": "A response packet runs the handler of the request registered last under exactly its transaction id, with that request and the response body; if no request was registered under that id nothing happens. The source address is not checked, and the entry is not removed: replaying the response runs the handler again.", "quantifier": "every history of queries and packets", "why_tests_cant": "Histories of queries and (replayed, forged) responses.", "anchors": ["dht/krpc/server.go: Query, responseHandle, doResponseHandle", "misc/syncmap.go"]}
{"id": "C31", "title": "Pending-request memory is bounded", "statement": "Over every history, the number of registered requests never exceeds 65536, because ids are 16-bit and a new query replaces the request registered under the same id.", "quantifier": "every history of queries and packets", "why_tests_cant": "Unbounded histories.", "anchors": ["dht/krpc/server.go: Query", "dht/node.go: TxIdGenerator.Next", "misc/syncmap.go: Put"]}
{"id": "C32", "title": "Query and response interoperate end to end", "statement": "For each of the four query constructors, the datagram produced by Query, under any map iteration order, is decoded by another server of this code base to a request with the same transaction id, method and arguments; the reply it sends, under any iteration order, is decoded by the first server, matched to the original request and handed to its handler with the same body.", "quantifier": "every id, target, info hash, token, port; every iteration order", "why_tests_cant": "All argument values and both directions' map orders.", "anchors": ["dht/messgaes.go", "dht/krpc/messages.go: RawData", "dht/krpc/server.go: Query, recvPacketHandle"]}
{"id": "C33", "title": "Crawling fan-out", "statement": "A find_node response listing m nodes triggers at most m new queries, each a find_node query to one of the listed addresses whose AddNode returned nil, in list order, each under the next transaction ids; the route table afterwards is the result of adding the listed nodes in order.", "quantifier": "every response and state", "why_tests_cant": "All responses and table states.", "anchors": ["dht/resphandler.go: genericRespHandler, findNodeRespHandler"]}
{"id": "C34", "title": "announce_peer feeds the torrent queue exactly once", "statement": "A packet enqueues a fetch job iff it is a query answered by the announce_peer handler (valid id, string info_hash, integer port); it enqueues exactly one job, carrying the request and source address; no other packet ever does.", "quantifier": "every packet and state", "why_tests_cant": "All packets.", "anchors": ["dht/requesthandler.go: announcePeerHandler"]}
{"id": "C35", "title": "BytesPool hands out buffers of the requested size", "statement": "After any history of Get/GetBySize/Put (with buffers sliced to any length), GetBySize(n) returns a buffer of length and capacity exactly n and Get one of the default width; each size class holds at most maxSize buffers. Among any number of goroutines a Get or Put that is under way can always finish: for n ≥ 0 with a buffer, for a negative n with a panic that leaves the pool as it was; Put appends the buffer at full length to its size class unless that is full.", "quantifier": "every history of pool operations", "why_tests_cant": "Unbounded histories with re-sliced buffers.", "anchors": ["misc/bytespool.go"]}
{"id": "C36", "title": "BytesPool never hands out a buffer that is still in use", "statement": "If every holder puts a buffer back at most once per time it got it, then at every moment no buffer is held twice, nor held and pooled at once. A double Put breaks this (concrete history shown).", "quantifier": "every history respecting the discipline", "why_tests_cant": "Unbounded histories.", "anchors": ["misc/bytespool.go"]}
{"id": "C37", "title": "Received packets are not overwritten before they are handled", "statement": "In every interleaving of the UDP receive routine and any number of packet workers, the bytes a worker decodes are exactly those received with that packet, and no two packets in flight share a buffer.", "quantifier": "every interleaving of receiver and workers, every packet sequence", "why_tests_cant": "Schedules and buffer reuse.", "anchors": ["dht/krpc/udp.go: recvRoutiue", "dht/krpc/server.go: recvPacketHandle, Listen"]}
{"id": "C38", "title": "BitTorrent handshake codec", "statement": "parseHandShakeMsg(withHandShakeMsg(peerId, infoHash)) returns protocol 'BitTorrent protocol', the extension bit set, and the same peer id and info hash, for all 20-byte ids; withHandShakeMsg panics for any other lengths; parseHandShakeMsg of a 68-byte message succeeds iff its first byte is at most 19 and panics on any other length.", "quantifier": "all ids; all 68-byte messages", "why_tests_cant": "All byte strings.", "anchors": ["dht/peerwire/bep3.go: withHandShakeMsg, parseHandShakeMsg, SupportExtended"]}
{"id": "C39", "title": "Extended handshake codec", "statement": "For every metadata dictionary m and every extra dictionary e (iteration orders arbitrary), the message built by withExtendedhandShake is a 4-byte big-endian length followed by that many bytes, and parseExtendedHandShake of these bytes yields e extended with 'm' -> m.", "quantifier": "every pair of dictionaries, every iteration order", "why_tests_cant": "All dictionaries.", "anchors": ["dht/peerwire/bep10.go"]}
{"id": "C40", "title": "Metadata message codec", "statement": "parseExtendedFetchMetaMsg(withExtendedFetchMetaMsg(id,type,piece,total,data)[4:]) returns the same id, type, piece and data (and the same total size when data is non-empty), for every binary payload, and the 4-byte prefix equals the length of the rest.", "quantifier": "all fields, all binary payloads, every iteration order", "why_tests_cant": "The payload is arbitrary binary data directly after a bencoded dictionary.", "anchors": ["dht/peerwire/bep9.go: BaseExFetchMetaMsg.Bytes, parseExtendedFetchMetaMsg"]}
{"id": "C41", "title": "Downloaded metadata is authentic", "statement": "Whatever the remote peer sends, in whatever chunks, and whatever other goroutines do to the shared buffers meanwhile, FetchMetaData returns either an error and no data or data whose SHA-1 equals the requested info hash; it never panics and closes the connection on every path after a successful dial.", "quantifier": "every peer behaviour, every chunking, every interference on pooled buffers, every timeout point", "why_tests_cant": "The peer is adversarial.", "anchors": ["dht/peerwire/bep9.go: FetchMetaData, readMetaDataLoop, readMetaDataHandler, handleExtendedMsg", "dht/peerwire/peer.go"]}
{"id": "C42", "title": "Piece requests cover the metadata exactly", "statement": "On an extended handshake announcing metadata_size s >= 0, exactly ceil(s/16384) requests are written, for pieces 0,1,2,... in order, each once; a completed download has received every one of these pieces since that handshake.", "quantifier": "every announced size, every later message sequence", "why_tests_cant": "All sizes and histories.", "anchors": ["dht/peerwire/bep9.go: handleExtendedMsg", "dht/peerwire/peer.go: CompledMetaData"]}
{"id": "C43", "title": "An honest peer is downloaded from", "statement": "If the peer answers the handshake, announces its metadata size and sends the data messages for its pieces in order, each message arriving so that its prefix and its body are delivered by separate reads, and nothing else touches the buffers, FetchMetaData returns exactly the metadata: for every metadata of 1..16384 bytes with any buffer pool, and for longer metadata whenever the pool already holds one spare 32 KiB buffer per piece.", "quantifier": "every metadata content and size, every iteration order of the message dictionaries, every such pool", "why_tests_cant": "All contents.", "anchors": ["dht/peerwire/bep9.go: FetchMetaData"]}
{"id": "C44", "title": "Received pieces share pooled buffers", "statement": "A piece received from the peer is a view of a pooled buffer that is given back before the next read. With m = max(1, spare 32 KiB buffers) buffers used in turn, the data that is checked at the end consists of the pieces as they are in those buffers after all messages, where each message was written over the message m before it; this holds for every stream of messages that completes a download, whatever their order, sizes and repetitions. For an honest peer that sends the pieces in order in messages with heads of equal length: in the place of piece i stands the last piece received into the same buffer (and what it leaves over of the one before, if it is the short last piece). So the metadata comes out intact exactly if every piece is the start of the piece m before it - in particular with m pieces or fewer - and otherwise the download fails with a checksum error unless the garbled data happens to have the requested hash; with one buffer (as at start-up) and two or more pieces, every place but the last contains the last piece followed by the rest of the last but one. (A reader of the code would expect the pieces to survive until they are merged; they do not.)", "quantifier": "every completing stream of messages, every number of pieces and spare buffers, every peer id, info hash and hash function", "why_tests_cant": "Depends on buffer aliasing across messages.", "anchors": ["dht/peerwire/bep9.go: readMetaDataHandler, parseExtendedFetchMetaMsg", "dht/peerwire/bep3.go: readBytesByPrefixLenMsg"]}
{"id": "C45", "title": "Message framing on the TCP stream", "statement": "When each read returns at most one message body, readBytesByPrefixLenMsg returns exactly the message body; a zero length prefix is reported as keep-alive and consumes nothing else; a length above 32768 is an error. In general it returns whatever one Read delivers: it may swallow following messages or return a partial one (concrete chunkings shown).", "quantifier": "every stream and every chunking", "why_tests_cant": "Chunkings of the stream are unbounded.", "anchors": ["dht/peerwire/bep3.go: readBytesByPrefixLenMsg"]}
{"id": "C46", "title": "Only verified torrents are written, under a safe name", "statement": "Every file the crawler creates or changes is named torrent/<40 lower-case hex digits>.torrent, where the digits encode the 20-byte info hash of an announce whose download delivered data with that SHA-1; every byte in it is a byte of that data at that place (or a zero in a hole while a concurrent download of the same torrent rewrites it); once a job for the file is done and none is in progress or has failed, the file is exactly the data. A fetch that fails writes nothing; a failed write leaves a truncated file even where a complete one was.", "quantifier": "every set of announce jobs handled concurrently, every peer behaviour, every failure and partial write of the file system, barring SHA-1 collisions among the fetched data", "why_tests_cant": "Adversarial announcements and peers.", "anchors": ["dht/fetchtorrent.go: fetchHandler, flushTorrentFile"]}
{"id": "C47", "title": "Fetch address selection", "statement": "For an announce with integer port p, the fetch address is the source address if implied_port is a positive integer, and source-IP:p otherwise (p unchecked: any int); a missing or non-integer port, or a non-integer implied_port, panics with *misc.Error. For an IPv4 source the address is a valid host:port; for an IPv6 source it is one only with implied_port (the IP is not bracketed), so such announces can never be fetched.", "quantifier": "every announce body and source address", "why_tests_cant": "All bodies.", "anchors": ["dht/fetchtorrent.go: parseFetchAddr"]}
{"id": "C48", "title": "Work pool executes every accepted task exactly once, in FIFO order", "statement": "In every interleaving, every task whose submission completed is started at most once, tasks are started in submission order, none is lost or duplicated (submitted = started + queued), at most size tasks run at once and at most size are queued; with an idle worker and a non-empty queue progress is always possible.", "quantifier": "every interleaving of submitters, workers and shutdown; every pool size", "why_tests_cant": "Schedules.", "anchors": ["misc/workpool.go: AsyncSubmit, workerLoop, NewWorkPool"]}
{"id": "C49", "title": "Work pool status and submissions after shutdown", "statement": "Once some Shutdown call has returned, every AsyncSubmit that has not yet read the status panics and enqueues nothing (one that has may still enqueue); the status never returns to Running; it moves backwards (Shutdowned to Shutdowning) only by a concurrent second Shutdown, which then panics.", "quantifier": "every interleaving", "why_tests_cant": "Schedules.", "anchors": ["misc/workpool.go: AsyncSubmit, Shutdown, Status, listenCancelLoop"]}
{"id": "C50", "title": "Work pool workers never terminate", "statement": "For a pool of at least one worker, no worker ever terminates and the wait for the workers never completes, in any interleaving: a Shutdown call that does the shutting down returns only through its timeout (a reader would expect it to return when the workers are done). Workers go on executing queued tasks after shutdown. With at most one Shutdown call, or calls that do not overlap, no call panics; two overlapping calls (e.g. cancellation and an explicit call) can close the channel twice and panic, which kills the process when it happens in the cancellation listener.", "quantifier": "every interleaving, every pool size >= 1", "why_tests_cant": "Impossibility over all schedules.", "anchors": ["misc/workpool.go: workerLoop, Shutdown, waitFinish"]}
{"id": "C51", "title": "Shutdown context runs every clean-up exactly once", "statement": "In every interleaving of any number of WaitShutdown calls, one call starts each registered clean-up function at most once, and only after a signal or a cancellation of the context; a call that returns without timing out has run every clean-up exactly once and all of them have returned; a single call returns with status Shutdowned; as long as the clean-ups return nothing keeps the call from finishing. Nothing guards against repetition: a second call runs every clean-up again and moves the status back, and a call that times out leaves its waiting goroutine behind for ever. A clean-up that panics ends the process, and nothing else in the shutdown does.", "quantifier": "every interleaving, any number of clean-ups", "why_tests_cant": "Schedules.", "anchors": ["misc/shutdown.go"]}
{"id": "C52", "title": "SyncMap behaves like an atomic map", "statement": "Every history of Put, Get and Del calls by any number of goroutines is linearizable (explained by a sequential map in which every call takes effect once, between its call and its return) up to the first overlapping unprotected access; the only access that can overlap a write is the look-up Del makes before taking the lock, so programs that do not call Del (like this one) never race, and programs that do can; calls never deadlock.", "quantifier": "every interleaving", "why_tests_cant": "Schedules.", "anchors": ["misc/syncmap.go"]}
{"id": "C53", "title": "Configuration is frozen at first access", "statement": "After the first successful access to a configuration section every later access returns the same value, whatever ResetConfig loads in between; a section accessed for the first time reflects the file loaded last. Consequence for the program: the file given with --config only decides about pprof; the port, bootstrap nodes, queue and pool sizes and log level are those of ./conf/config.json, because they are read during package initialisation and in main, before the flag is parsed.", "quantifier": "every history of accesses and reloads", "why_tests_cant": "Histories.", "anchors": ["config/config.go: getSubConfig, ResetConfig", "cmd/root.go: rootExectueFunc", "dht/dht.go: localAddr", "dht/fetchtorrent.go: recvInfoHash", "main.go: main"]}
{"id": "C54", "title": "Logger level filtering", "statement": "A console logger prints a message (once, with its prefix) iff its level is not above the message's, so Trace is always printed; only Panic panics, and not on a logger of level TRACE; SetPrefix keeps the level; GetLogger returns the same logger for the same name for ever, whatever SetLevel/InitLogger do in between, and a new name gets the level set last. Consequence for the program: the configured log level has no effect on any of its loggers. An unknown level name means DEBUG.", "quantifier": "every level, every history of SetLevel/GetLogger/SetPrefix", "why_tests_cant": "Histories.", "anchors": ["misc/logger.go"]}
{"id": "C55", "title": "torrent command prints one line per torrent", "statement": "For a directory the command prints exactly one line per regular entry with suffix .torrent, in directory order, up to the first that cannot be read or decoded, which ends the command with a panic; the line of a file that holds a bencoded dictionary shows its name, length and piece length with defaults for missing or wrongly typed fields; a dictionary followed by further bytes ending in e is printed with all defaults instead of failing. A missing argument or an unreadable directory panics without any output.", "quantifier": "every directory content", "why_tests_cant": "All file contents.", "anchors": ["cmd/torrent.go"]}
{"id": "C56", "title": "Closing the UDP server", "statement": "Once Close has marked the UDP server closed, its receiving goroutine stops after a bounded number of its own steps (it can only be held up by a full receive queue); after the socket is closed no further packet is read; when Close returns the server is marked closed.", "quantifier": "every interleaving of the receiver, the packet consumer and any number of callers of Close, every sequence of datagrams", "why_tests_cant": "All interleavings of the closing goroutines with the receive loop.", "anchors": ["dht/krpc/udp.go: Close, recvRoutiue"]}
{"id": "C57", "title": "The download's buffer discipline", "statement": "Whatever the peer sends and whatever other goroutines do, a download gives back to the pool only buffers it currently holds (each at most once per acquisition), and a round of its read loop leaves a buffer unreturned only when the message was a keep-alive (one prefix buffer per keep-alive) or a pooled buffer of capacity 0 was obtained.", "quantifier": "every peer behaviour, every interference", "why_tests_cant": "Ranges over all byte streams, chunkings and interferences.", "anchors": ["dht/peerwire/bep3.go: readBytesByPrefixLenMsg", "dht/peerwire/bep9.go: readMetaDataHandler, FetchMetaData", "misc/bytespool.go"]}
{"id": "C58", "title": "Memory a peer can make the crawler request", "statement": "An extended handshake announcing metadata_size s >= 0 (with 24*ceil(s/16384) <= 2^48) makes the download allocate 24*ceil(s/16384) bytes at once, before any check; the process can only die in FetchMetaData by such an allocation (at most 2^48 bytes) failing; a concrete short message does so.", "quantifier": "every announced size, every peer behaviour", "why_tests_cant": "All peer behaviours; and the failure kills the test process.", "anchors": ["dht/peerwire/bep9.go: handleExtendedMsg, FetchMetaData"]}
{"id": "C59", "title": "A download ends once reads fail", "statement": "When the connection's read deadline has passed, so that every read after the n-th fails, FetchMetaData returns: it performs at most n+1 rounds of its message loop, whatever the peer sent.", "quantifier": "every peer behaviour, every n", "why_tests_cant": "Termination over all inputs.", "anchors": ["dht/peerwire/bep9.go: FetchMetaData, readMetaDataLoop, readMetaDataHandler"]}
{"id": "C60", "title": "Registering clean-ups while shutdown begins", "statement": "Every function run at shutdown was registered, and runs at most as often as it was registered. If no registration overlaps the start of the shutdown, every function registered before it is run exactly once, none registered after it is run, and the process is not killed. If a registration lands between the two reads of the clean-up list, the process can be killed by a negative WaitGroup counter; and only such a registration can cause that.", "quantifier": "every set of registering goroutines and every interleaving with WaitShutdown", "why_tests_cant": "All interleavings of unsynchronised registrations with the shutdown.", "anchors": ["misc/shutdown.go: RegisterShutDownClean, Clean, WaitShutdown, runCleans", "cmd/root.go: rootExectueFunc"]}
{"id": "C61", "title": "One logger per name under concurrency", "statement": "For every set of concurrent GetLogger and SetLevel calls: as long as no map access has overlapped a map write, all calls with the same name return the same logger and only one logger is created per name. The only possible overlap is the store of a new logger with an unlocked first look-up of another goroutine; it can occur with two goroutines and cannot with one.", "quantifier": "every number of goroutines, every interleaving", "why_tests_cant": "All interleavings of the double-checked look-up.", "anchors": ["misc/logger.go: mapLogger, setLevel, GetLogger, SetLevel"]}
{"id": "C62", "title": "End-to-end packet and download pipeline", "statement": "Packets are handled in arrival order, each at most once; each announce whose info hash was accepted becomes exactly one download, started in acceptance order. At any time at most 100 packets wait in the socket queue plus at most 2*W1+1 in the packet pool, and at most Q+2*W2+1 info hashes are accepted and unfinished. An announce is answered only after its info hash was accepted, so the number of answered announces is at most the number of finished downloads plus Q+2*W2+1. Without new packets only finitely many steps are possible and when none is left every packet has been handled and every accepted info hash downloaded. If downloads never return, Q+2*W2+1+W1 announces bring the server to a state in which it sends no datagram, whatever arrives, until a download returns.", "quantifier": "every pool size W1, W2 >= 1, every queue size Q, every packet handler behaviour, every interleaving of receive, dispatch, handler and download goroutines", "why_tests_cant": "All interleavings of an unbounded number of packets and goroutines; the stall is a liveness property.", "anchors": ["dht/krpc/server.go: RpcServer.Listen", "dht/dht.go: Run", "dht/fetchtorrent.go: fetchTorrent, fetchHandler", "dht/requesthandler.go: announcePeerHandler", "misc/workpool.go: WorkPool", "dht/krpc/udp.go: StartUdpServer"]}
{"id": "C63", "title": "Start-up order and outgoing queries", "statement": "BootStrap(host) draws one transaction id, registers one find_node query for the own id under it and sends exactly this query to the resolved address; it panics iff the host does not resolve (then nothing is sent) or the socket refuses, each with its own fixed text. The configured hosts are contacted in order, each at most once, up to the first failing one, which ends the process. No packet is handled before all hosts were contacted, all four methods registered, the torrent loop started and the clean-up registered; packets that arrive earlier are kept (at most 100) and handled in arrival order; start-up is never stuck. In every history each datagram sent is either the reply to a query, or a find_node query that the same goroutine registered before under the id it drew; from then on every response with this id finds exactly this query.", "quantifier": "every list of bootstrap hosts, every behaviour of resolver and socket, every arrival of packets, every interleaving of goroutines", "why_tests_cant": "All orders of packet arrival and start-up steps, all histories; a test covers one schedule.", "anchors": ["cmd/root.go: rootExectueFunc", "dht/dht.go: Run, BootStrap", "dht/krpc/server.go: Query, Listen, RegisteHandler", "dht/krpc/udp.go: StartUdpServer, recvRoutiue"]}
{"id": "C64", "title": "Full, exact AddNode results, permanence of refusals", "statement": "Full() answers true exactly if the table has been split up to its capacity and its last bucket holds k nodes; once true it stays true. AddNode returns nil iff the node's bucket has room or is the last bucket, full, splittable and the node is new; it returns 'the bucket is full' iff the bucket is full and not the last one, or full and the node already stored; 'full route table' iff the node is new, belongs to the last bucket and the table is Full. After an error the table is unchanged. A node refused because its bucket is not the last one or the table is full is refused for ever with the same error; a stored node refused while the last bucket is full may be accepted after a split (concrete history).", "quantifier": "every reachable table, every node, every later history of insertions", "why_tests_cant": "Ranges over all histories of insertions and all ids.", "anchors": ["dht/routetable.go: RouteTable.Full, RouteTable.AddNode, addNode, addNodeWithsplitBucket"]}
{"id": "C65", "title": "Exact text of error replies", "statement": "A query that cannot be answered gets exactly one reply, an error with code 203 whose text names the first problem: unknown type, missing or ill-typed argument dictionary, missing, ill-typed or not 20-byte id, a type no handler is registered for (another case), missing or ill-typed info_hash or port. Nothing else is ever reported, and a query without problem gets no error. Where a field is missing or has the wrong type, the text contains the stack trace of the server.", "quantifier": "all packets that decode to a query with transaction id and type, all tables of Unicode case folding, all states of the rest of the system", "why_tests_cant": "The packets, query names and argument dictionaries are unbounded; tests see a few malformed ones.", "anchors": ["dht/krpc/server.go:requestHandle", "dht/krpc/messages.go:WithParamErr", "misc/errors.go", "misc/types.go"]}
{"id": "C66", "title": "Text of log records and errors", "statement": "A console record is time, level, bracketed prefix (if not empty), message and the context's entries as key:value separated by bars in the order of map iteration, followed by CR LF; it has exactly the line feeds of its parts plus one, so values containing line feeds forge records, and contexts are not recoverable from the text. An error's text is code, message, parameters and always the stack trace. The helpers panic exactly when given an error.", "quantifier": "all messages, prefixes, contexts, orders of map iteration, errors, parameter lists", "why_tests_cant": "Ranges over all texts and all iteration orders of Go maps.", "anchors": ["misc/logger.go:appendCtx", "misc/logger.go:print", "misc/strings.go:ToString", "misc/errors.go"]}
{"id": "C67", "title": "Registration of query handlers", "statement": "RegisteHandler panics iff the name is not one of the four query types up to case or the handler is nil, and changes nothing then; otherwise it sets the handler of exactly this name, byte for byte. After any sequence of calls a query type is served by the last successfully registered handler of exactly that name; a known type without one is refused with 'cannot handle not match handler'.", "quantifier": "all sequences of registrations with recovered panics, all names, handlers, queries and case foldings", "why_tests_cant": "Histories of registrations and names are unbounded.", "anchors": ["dht/krpc/server.go:RegisteHandler", "dht/krpc/server.go:requestHandle"]}
{"id": "C68", "title": "File logger", "statement": "A logger made by NewZapLogger(file, level) and any number of SetPrefix calls writes one record for a call iff its method is at least as severe as the threshold (DEBUG, ERROR, PANIC; every other name, including WARN, TRACE and lower case, means INFO), with only the last prefix in brackets before the message and one field per context entry; Trace and Panic are always written; exactly Panic panics. Info records always reach logs/infohash.log. Records carry their method's level (-1, 0, 1, 2, 4; 10 for Trace).", "quantifier": "all file names, level names, sequences of prefixes, methods, messages and contexts", "why_tests_cant": "Ranges over all level names, prefix sequences and contexts.", "anchors": ["misc/zap.go", "dht/requesthandler.go:infoHashLogger"]}
{"id": "C69", "title": "Log of info hashes", "statement": "logs/infohash.log gets exactly one record for each answerable get_peers or announce_peer query and none for anything else; the record holds the query's name, the source address, the announced port and the info hash in lower-case hex. It is written before the download is queued and before the reply is sent. Whatever the schedule, every download started belongs to a recorded announce, and the torrent file it writes is named after the info hash of that record.", "quantifier": "all packets, all behaviours of the rest of the system, all schedules of the packet and download pools, all peers", "why_tests_cant": "Ranges over all packets and all interleavings of handlers and downloads.", "anchors": ["dht/requesthandler.go:getPeersHandler", "dht/requesthandler.go:announcePeerHandler", "dht/requesthandler.go:infoHashLogger", "dht/fetchtorrent.go:fetchHandler"]}
{"id": "C70", "title": "A download as a function of the messages received", "statement": "Over a connection that delivers each length prefix and each message body in one read, with writes that succeed and the ten seconds not over, the result of FetchMetaData is a function of the messages alone: keep-alives, other message types, unknown extensions, requests and rejects change nothing; an extended handshake announces a size and starts over; data for an announced piece is stored; anything else fails. The download fails at exactly the first failing message, without reading further, with 'FetchMetaData err'; it ends, without reading further, as soon as all pieces of the last announcement are there, with the concatenation of the data last received for each piece if it has the right hash (and 'check sum err' if not), provided no piece's pooled buffer was reused; it fails when the connection ends before.", "quantifier": "all sequences of messages of all peers, all hash functions, all pool contents", "why_tests_cant": "Ranges over all message sequences, in any order and with any repetition.", "anchors": ["dht/peerwire/bep9.go:FetchMetaData", "dht/peerwire/bep9.go:readMetaDataHandler", "dht/peerwire/bep9.go:handleExtendedMsg"]}
{"id": "C71", "title": "Ten second limit of a download", "statement": "The ten-second clock is asked before every message: in every prefix of a download's history at most one read (the handshake) plus two per question were made. Once the clock says the time is over, nothing is read or written any more, the connection is closed and the result is the error 'cannot completed download metadata', never content.", "quantifier": "all peers, all times at which the limit strikes, all prefixes of the history", "why_tests_cant": "Ranges over all peers and all instants at which the timer can fire.", "anchors": ["dht/peerwire/bep9.go:FetchMetaData", "dht/peerwire/peer.go:IsReadLoopExpire"]}
{"id": "C72", "title": "Messages on the wire, field by field", "statement": "Sending a query made by WithPingMsg, WithFindNodeMsg, WithGetPeersMsg or WithAnnouncePeerMsg registers it and puts exactly one datagram on the socket: a bencoding of the dictionary with t, y = q, the method's name, and exactly the documented arguments (announce_peer: id, info_hash, port, token and implied_port 0). Replies and error replies carry exactly t, y and the documented r or e. A find_node reply made for a list of IPv4 nodes, however it is encoded, makes a node with a pending find_node query of that id offer exactly these nodes, in order, to its route table and query the accepted ones; the peers of a get_peers reply are read back exactly.", "quantifier": "all ids, targets, info hashes, tokens, ports, lists of nodes and peers, all map iteration orders", "why_tests_cant": "Ranges over all argument values and all iteration orders of the maps.", "anchors": ["dht/messgaes.go:WithAnnouncePeerMsg", "dht/messgaes.go:WithFindNodeResponse", "dht/krpc/messages.go:WithErr", "dht/krpc/server.go:Query"]}
{"id": "C73", "title": "Route table under concurrent use", "statement": "Any number of goroutines may call AddNode, Find, FindClosest, Size and Full of one route table at once. Every completed call has the answer it would have had at one instant between its call and its return in a single sequential history of the insertions; each AddNode takes effect exactly once; no call panics (except FindClosest with a negative count), diverges or deadlocks, and critical sections end after a number of accesses fixed at their beginning. Once a Find(id) has returned a node with that id, every later Find(id) finds one.", "quantifier": "all numbers of goroutines, all calls, all interleavings at the granularity of single field accesses", "why_tests_cant": "Ranges over every schedule of every set of concurrent calls.", "anchors": ["dht/routetable.go:RouteTable", "dht/routetable.go:AddNode", "dht/routetable.go:Find", "dht/routetable.go:FindClosest"]}
{"id": "C74", "title": "The conversation of a download", "statement": "Whatever the peer does, the interactions of a download follow one protocol: the 68-byte BEP 3 handshake with the caller's ids is written once; the answer is read once and, unless it is a BitTorrent handshake with the extension bit, nothing more is written; then the fixed extended handshake is written; then rounds of asking the clock, reading a length prefix and reading a body follow; an accepted announcement of z bytes is followed immediately and in order by the byte-exact requests for its ceil(z/16384) pieces, each once; nothing else is ever written; after any failed read or write, or once the time is over, nothing is read or written; the connection is closed exactly once, last.", "quantifier": "all peers, all chunkings and failures, all interference with the shared buffers, all ids and map orders", "why_tests_cant": "Ranges over all behaviours of a remote peer and of the network, and over all prefixes of the history.", "anchors": ["dht/peerwire/bep9.go:FetchMetaData", "dht/peerwire/bep9.go:handshake", "dht/peerwire/bep9.go:initialMessages", "dht/peerwire/bep9.go:readMetaDataHandler"]}
{"id": "C75", "title": "Real time of a download", "statement": "The read deadline is one second after connecting and is never renewed: no read that begins later succeeds, and if every write takes at most w milliseconds a download takes at most one second plus w per write; so the ten-second limit has no effect as long as the writes take less than nine seconds together. Writes have no deadline: a peer that reads nothing and announces a size with more requests than the buffers in between hold keeps the download forever, and for every size of these buffers such a peer exists.", "quantifier": "all peers, all timings consistent with the documented semantics of deadlines and timers, all buffer sizes up to 2^48", "why_tests_cant": "Ranges over all timings; never ending cannot be observed.", "anchors": ["dht/peerwire/bep9.go:FetchMetaData", "dht/peerwire/peer.go:NewPeerConn", "dht/peerwire/peer.go:IsReadLoopExpire"]}
{"id": "C76", "title": "Peers that never read capture the download workers", "statement": "A download whose peer reads nothing never ends (C75) and keeps its worker for ever; at most as many such downloads start as there are download workers; once W2 announces of such peers have been received (500 by default) and the crawler has done all it can, no download is ever started or finished again, whatever packets follow, and at most W2 + 1 + Q further announces are accepted. For every info hash, peer id, pool size and buffer size up to 2^48 bytes such a peer exists: it sends three chunks.", "quantifier": "all histories and schedules of the pipeline, all pool and queue sizes, all packets, all hash functions", "why_tests_cant": "Claims about what never happens again, over all continuations of all schedules; a hang cannot be observed to last for ever.", "anchors": ["dht/fetchtorrent.go:fetchTorrent", "dht/fetchtorrent.go:fetchHandler", "dht/peerwire/bep9.go:FetchMetaData", "misc/workpool.go:AsyncSubmit", "dht/requesthandler.go:announcePeerHandler"]}
{"id": "C77", "title": "Which node ids are taken for the same", "statement": "Node ids are compared with strings.EqualFold: any two ids are taken for the same iff, read as UTF-8 with every byte that begins no character counting as U+FFFD, they have the same number of characters and agree character by character up to case. In particular: for ids without bytes that begin a multi-byte character, two ids are the same iff they have equal length and agree byte by byte up to the case of letters, where all invalid bytes (0x80-0xC1, 0xF5-0xFF) count as equal; so ids of equal length made of invalid bytes are all the same, text ids are compared case-insensitively, Find may answer with another node, and a different node with the same address and bucket is never stored although AddNode returns nil. Ids that are valid UTF-8 without characters that have case variants are the same only if equal.", "quantifier": "all ids of any bytes and any length, all reachable route tables", "why_tests_cant": "Quantifies over all pairs of binary ids and all tables.", "anchors": ["dht/node.go:Equals", "dht/routetable.go:Find", "dht/routetable.go:AddNode"]}
{"id": "C78", "title": "How much one packet makes the crawler send", "statement": "Whatever arrives, the crawler sends in reaction at most one datagram, or one per 26 bytes received. The reply to an answerable query goes to its source and is shorter than the query, except for get_peers (transaction id repeated as token), where it is less than twice as long; its exact size is a function of the transaction id. A refused query is answered with at most 100 bytes more than the query and a stack trace, and the stack trace is really sent: 22 bytes from a forged source are answered with the whole trace. Each query caused by a response has 94 bytes, so the bytes sent for a response are less than four times the bytes received.", "quantifier": "all packets (any bytes), all sources, all states of the rest of the system, all map iteration orders, all stack traces", "why_tests_cant": "Size bounds over all inputs of any length; tests see single packets.", "anchors": ["dht/krpc/server.go:recvPacketHandle", "dht/krpc/server.go:requestHandle", "dht/resphandler.go:findNodeRespHandler", "misc/beancode.go:EncodeDict", "misc/errors.go:Error"]}
{"id": "C79", "title": "Replayed responses are acted upon again and again", "statement": "Every packet can be handled whatever the state of the shared objects is. A response to a find_node query whose nodes are already stored in buckets with room causes one query to every listed node each time it arrives: m copies cause m queries to each node, for every m; the pending request is never consumed, and the route table only counts its size up by the number of nodes each time.", "quantifier": "all responses, all node lists, all reachable route tables, any number of copies", "why_tests_cant": "The claim is about any number of repetitions in any reachable state.", "anchors": ["dht/krpc/server.go:responseHandle", "dht/resphandler.go:findNodeRespHandler", "dht/routetable.go:AddNode", "dht/krpc/server.go:Query"]}
{"id": "C80", "title": "The RPC server with arbitrary handlers and middlewares", "statement": "For any handlers and middlewares installed with UseReqHandlerMiddleware, UseRespHandlerMiddleware and RegisteHandler, in any order of calls: a query of a known type with a 20-byte id and a registered handler starts the request middlewares and then the handler, once each, in the order of registration, whether or not they call Next; if one panics, exactly a prefix is started. The sender then gets exactly the response left in the context, an empty datagram if that response has a value without bencoding, an error 203 with the text of a reported parameter problem, and nothing if no response was written, an error response lacks code or text, or there is any other panic. A response to a pending request starts the response middlewares and then that request's handler with the response. In all cases the worker survives and the buffer is given back once.", "quantifier": "all terminating handlers and middlewares (they may panic, call Next any number of times, replace the response), all configuration histories, all packets and sources, all answers of the rest of the system", "why_tests_cant": "It ranges over arbitrary programs plugged into the server.", "anchors": ["dht/krpc/server.go:UseReqHandlerMiddleware", "dht/krpc/server.go:UseRespHandlerMiddleware", "dht/krpc/server.go:RegisteHandler", "dht/krpc/server.go:recvPacketHandle", "dht/krpc/server.go:doRequestHandle", "dht/krpc/server.go:doResponseHandle", "dht/krpc/middleware.go:Next"]}
{"id": "C81", "title": "The concrete hash and the program's identities", "statement": "Every digest GeneratePeerId, GenerateInfoHash and the node id generator produce has 20 bytes. The hash function is SHA-1 as FIPS 180-4 defines it, for every message (padding, message schedule, rounds, chaining of the blocks); the padding is injective and fills whole blocks. The program's node id and peer id are two fixed byte strings; the first message of a download is a fixed 68-byte text around the info hash, and a wrong info hash length panics before sending. For every torrent of 1 to 2^40 bytes, an honest peer serving it under its SHA-1 is downloaded from, provided the download is alone and the pool holds as many spare 32 KiB buffers as there are pieces (or there is one piece only). Files written carry the hex SHA-1 of the data they hold unless two downloaded torrents collide. The bounds on what one packet makes the crawler send hold for the real node id.", "quantifier": "all messages, all info hashes, all torrents, all histories of announces", "why_tests_cant": "All inputs of a hash function and all torrents; a test fixes a few vectors.", "anchors": ["dht/node.go:generateNodeId", "dht/peerwire/peer.go:GeneratePeerId", "dht/peerwire/peer.go:GenerateInfoHash", "dht/peerwire/bep3.go:LocalPeerId", "dht/peerwire/bep3.go:withHandShakeMsg", "dht/dht.go:localNodeId"]}
{"id": "C82", "title": "How far a crawl can get", "statement": "However long the crawler runs, all datagrams it sends other than replies to queries and the messages to bootstrap hosts go to at most 1288 different addresses. For every p at most eight stored nodes share exactly the first p bits with the crawler's own id; in particular at most eight stored nodes have ids beginning with the bit 0. Two IPv4 nodes the table takes for the same have the same address. The table can be made exactly when the configured DHT port is in 0..65535 and then holds the crawler itself only; otherwise the program panics at the start.", "quantifier": "all histories: any number of goroutines, any packets, any interleaving, any bootstrap hosts", "why_tests_cant": "It bounds a process that runs for ever against arbitrary (forged) responses.", "anchors": ["dht/dht.go:rtable", "dht/resphandler.go:findNodeRespHandler", "dht/routetable.go:AddNode", "dht/node.go:NewNodeInfoFromHost", "dht/node.go:Equals", "dht/krpc/server.go:Query"]}
{"id": "C83", "title": "Ending the program", "statement": "Seen from start to exit, the program ends by itself only after a SIGINT or SIGTERM, and only after every bootstrap host has been contacted successfully: while it is bootstrapping, signals change nothing. After bootstrapping, one signal, whenever it arrived, is enough: main always has a step to take until it has returned, whatever the other goroutines do, and needs at most five. The UDP socket stays open until main has seen a signal; if the program ends without reaching its five second limit, the socket has been closed, provided the clean-up was registered when the shutdown began. The process can be killed during the shutdown only if the clean-up is registered after the clean-ups were counted; once it is registered before the first signal this is impossible. After the socket is closed nothing more is received. Until the end, every datagram received is handled, in the queue, or in the hands of the receive goroutine; but the end does not wait for them, so a received packet may never be handled.", "quantifier": "all schedules of main, Run, runCleans, the clean-up, the receive goroutine and the operating system's signals; all bootstrap hosts; all packets", "why_tests_cant": "The interleavings of a signal with start-up, registration and clean-up cannot be enumerated by tests.", "anchors": ["cmd/root.go:Execute", "dht/dht.go:Run", "misc/shutdown.go:Wait4Shutdown", "misc/shutdown.go:runCleans", "dht/krpc/udp.go:Close", "dht/krpc/server.go:Close"]}
{"id": "C84", "title": "A bucket by itself", "statement": "After NewBucket(capacity) and any calls of Add, All returns the first capacity nodes in the order of the calls, duplicates included; Size, Full and Exist agree with that, and the next Add succeeds iff fewer than capacity calls were made. Iterator calls its function exactly capacity times, with nil for every slot that is not used.", "quantifier": "all capacities and all sequences of Add", "why_tests_cant": "Quantifies over all sequences of calls of any length and all capacities.", "anchors": ["dht/routetable.go:NewBucket", "dht/routetable.go:Bucket.Add", "dht/routetable.go:Bucket.All", "dht/routetable.go:Bucket.Iterator", "dht/routetable.go:Bucket.Exist"]}
{"id": "C85", "title": "A submitted task is executed in the end", "statement": "In every infinite execution of the work pool in which the scheduler does not forget a worker: if at least one worker always returns from its tasks, every submitted task is started, and every AsyncSubmit that has passed its status check completes (provided it is not overtaken for ever at the channel); if all tasks return, every submitted task is finished; a scheduled call of Shutdown ends. This holds while other callers go on submitting for ever and whether or not Shutdown is called. Without the assumption that tasks return it is false.", "quantifier": "all pool sizes >= 1, all infinite schedules that are fair to the workers, all submissions", "why_tests_cant": "a liveness property of infinite schedules; a test sees finitely many steps of one schedule", "anchors": ["misc/workpool.go:34-53", "misc/workpool.go:55-70", "misc/workpool.go:AsyncSubmit", "misc/workpool.go:Shutdown"]}
{"id": "C86", "title": "Every packet is handled and every announced torrent is fetched", "statement": "In every fair infinite execution, with packets arriving for ever and at any rate, every packet that has entered the receive queue is handled to its end, every announce_peer is answered and its download is started, and the receive queue has room again and again - as long as at least one download worker always returns from its downloads.", "quantifier": "all packet sequences, all pool and queue sizes (pools >= 1), all fair infinite schedules", "why_tests_cant": "liveness over infinite fair schedules through two pools and two bounded channels", "anchors": ["dht/krpc/server.go:35-48", "dht/krpc/udp.go:96-107", "dht/fetchtorrent.go:14-25", "dht/requesthandler.go:43", "misc/workpool.go"]}
{"id": "C87", "title": "A signal ends the program", "statement": "In every execution that does not forget the main goroutine, once a signal has arrived and bootstrapping is over, the process ends (main returns or the clean-up panics); no behaviour of the network, the handlers, the downloads or the clean-up function prevents it.", "quantifier": "all infinite executions of the program weakly fair to the main goroutine", "why_tests_cant": "liveness over all schedules and all network inputs", "anchors": ["misc/shutdown.go:46-68", "misc/shutdown.go:80-91", "main.go:9-12", "cmd/root.go:31-52"]}
{"id": "C88", "title": "Datagrams longer than the receive buffer", "statement": "The receiver keeps the first 1024 bytes of a datagram. If a message is cut anywhere, nothing is invented or altered: either nothing is decoded, or what is decoded is part of what was sent (fields and elements may be missing, those present are unchanged). A cut query is ignored or handled with its own transaction id and method and part of its arguments, causing at most one datagram, to its source; a cut reply is ignored or runs the handler of the query it answers with part of its body; of a cut find_node reply all nodes are used or none. All queries made by the program's constructors with ordinary sizes, their replies, and node lists of up to 37 nodes fit, so query and reply arrive whole through both receive buffers; 38 nodes do not fit.", "quantifier": "all messages, all map orders, all cut positions, all node lists and handlers", "why_tests_cant": "every message and every cut position; the decoder accepts some incomplete dictionaries, so a cut message can be accepted", "anchors": ["dht/krpc/udp.go:14", "dht/krpc/udp.go:88-120", "misc/beancode.go", "dht/krpc/server.go"]}
{"id": "C89", "title": "Where the nodes of the route table come from", "statement": "Every node in the route table is the crawler's own, or it was listed in a response whose transaction id belonged to a query that the crawler had registered before, addressed to a bootstrap host or to a node that got into the table in this same way earlier. Without a query to a bootstrap host the table keeps only the own node and the crawler sends nothing but replies to queries. Conversely, from the moment a query is registered, a reply with its transaction id from any address makes the crawler offer exactly the nodes listed in it to the table, in order, and query the accepted ones.", "quantifier": "all histories: any number of goroutines, any packets, any interleaving, any bootstrap hosts; all addresses and node lists for the converse", "why_tests_cant": "the chain of discoveries is unbounded and depends on every earlier packet and interleaving", "anchors": ["dht/resphandler.go: genericRespHandler", "dht/krpc/server.go: responseHandle", "dht/routetable.go: AddNode", "dht/dht.go: BootStrap"]}
{"id": "C90", "title": "What the console log says about packets", "statement": "Logging does not change how a packet is handled. Every record written while a packet is handled has one of the fixed texts and keys, and of the packet's strings only the transaction id, the method name and the node id of a response get into it unchanged; every datagram handed to the kernel has exactly one record of the UDP logger, in the same order, which says whether it was sent. A query leaves the exact sequence of records stated (including '>>>  Bytes sended' although the kernel refused the reply); a matched find_node response ends with 'cannot match request ignore' although it matched. Any other packet leaves one error record that says what is wrong with it. A packet leaves no record exactly if it is a dictionary whose 'y' is a string other than q, r, e. A packet causes at most 4 + 3*(length/26) records. Any line of up to 980 bytes can be put into the log by one packet; without line feeds in those three strings each record is one line, apart from the stack traces of complaints about fields.", "quantifier": "all packets, source addresses, pending requests, map orders, table answers, kernel failures and texts of the runtime", "why_tests_cant": "ranges over all byte strings of packets and all answers of the shared objects; a test sees the log of a few packets", "anchors": ["dht/krpc/server.go: recvPacketHandle, requestHandle, responseHandle, responseErrHandle, Query", "dht/krpc/udp.go: SendPacket", "dht/requesthandler.go", "dht/resphandler.go", "misc/logger.go"]}
{"id": "C91", "title": "What the codec costs", "statement": "Decoding a byte string looks at no more than three times its length plus one bytes, whatever the bytes are and whether or not it succeeds, and what it returns is no larger than the input (strings, keys and one per value): a packet cannot make the decoder work or allocate out of proportion. Encoding copies at most the square of the length of its output, and that square is reached: building the 3n+2 bytes of a list of n zeros copies (3n^2+15n+4)/2 bytes, because the output is built by string concatenation.", "quantifier": "all inputs of the decoders, all values given to the encoders, all n", "why_tests_cant": "complexity bounds range over all input sizes; a benchmark measures a few", "anchors": ["misc/beancode.go: DecodeDict, DecodeDictNoLimit, DecodeSlice, EncodeDict, EncodeSlice, decodeItem, encodeItem"]}
{"id": "C92", "title": "From announce to file", "statement": "The running crawler, from the received datagram to the file: at any moment, and so whenever the process is killed, a file of the directory is as it was at the start or belongs to an announce_peer query that has arrived and been logged, whose download delivered data with the announced SHA-1, is named after that hash and holds bytes of that data only. In every fair execution, whatever else arrives, a job that is accepted and whose download delivers is written completely or a file operation has failed; if none fails and the torrent is announced only finitely often, the file is exactly the data from some moment on, for ever. Without the directory 'torrent', which the program never creates, no file is ever written.", "quantifier": "all packets, peers, schedules, pool and queue sizes, initial directories, moments of interruption; all fair infinite executions", "why_tests_cant": "end-to-end guarantee over all interleavings of two pools, two queues and the file system, and over infinite executions", "anchors": ["dht/fetchtorrent.go: fetchTorrent, fetchHandler, flushTorrentFile", "dht/krpc/server.go: Listen", "misc/workpool.go: WorkPool", "dht/requesthandler.go: announcePeerHandler"]}
{"id": "C93", "title": "Crash and restart", "statement": "After any number of lives of the crawler, each ended at any moment, every file is as before the first start or holds nothing but bytes (at their places, or zeros) of data that in one of the lives was downloaded for an announce of the info hash in its name. A file stays as a life found it, truncated or not, unless a download of this very torrent delivers in that life; a life in which such a download is written to the end, and none is in progress or failed, leaves the complete file whatever earlier lives left. A crash can destroy a complete file: whenever an announced torrent is downloaded again there is a moment at which killing the process leaves its file empty.", "quantifier": "all numbers of lives, all moments of death, all packets, peers and schedules in each life, all initial directories", "why_tests_cant": "ranges over all crash points of all executions and over all sequences of restarts", "anchors": ["dht/fetchtorrent.go: flushTorrentFile, fetchHandler", "main.go: main", "cmd/root.go: rootExectueFunc"]}
{"id": "C94", "title": "The torrent command on the directory of the crawler", "statement": "Listing the crawler's directory with the torrent command prints one line per torrent file, in the order of the directory, and ends normally if every torrent file holds a bencoded dictionary. One file that is empty, does not begin with d or does not end with e (as a crash, or a metadata blob that is no dictionary, leaves it) ends the command with a panic, and neither this file nor any behind it is shown. Anybody can cause this for good: an announce whose peer delivers bytes that have the announced hash and are no dictionary makes all later listings panic, and restarting the crawler does not help unless the hash is announced again.", "quantifier": "all directory contents and orders, all packets, peers, schedules and numbers of restarts", "why_tests_cant": "ranges over all contents of the directory and all executions of the crawler that can have produced it", "anchors": ["cmd/torrent.go: printTorrentInfo, torrentCmd", "dht/fetchtorrent.go: flushTorrentFile, fetchHandler", "misc/bencode.go: DecodeDict"]}
{"id": "C95", "title": "A network of crawlers does not feed itself", "statement": "However many copies of the crawler run on a network which delays, loses, duplicates and reorders datagrams and on which anybody may send anything: together they send at most two datagrams per bootstrap, and per datagram from outside one datagram or two for each 26 bytes of it that are received. Every node offered to a route table was listed in a response that did not come from a crawler; crawlers among themselves send at most two datagrams per bootstrap and learn nothing from each other; strangers who send no responses get at most one datagram per datagram and teach nothing. There is no packet storm: no infinite exchange goes on without further bootstraps or datagrams from outside.", "quantifier": "any number of crawlers at any addresses, all packets of strangers with any source addresses, all schedules, losses, duplications and delays, all states of the crawlers", "why_tests_cant": "ranges over all networks and all infinite executions; a loop between two servers shows up only in some combination of messages", "anchors": ["dht/krpc/server.go: recvPacketHandle, requestHandle, responseHandle, Query", "dht/requesthandler.go: findNodeHandler, getPeersHandler", "dht/resphandler.go: findNodeRespHandler", "dht/dht.go: BootStrap", "dht/krpc/udp.go: recvRoutiue, SendPacket"]}
{"id": "C96", "title": "Calls on the shared data structures return", "statement": "Whatever any number of other goroutines do, for ever: every AddNode, Find, FindClosest, Size and Full of the route table, every Add, Exist, All, Size and Full of a bucket, every Next of the transaction id generator and every Put and Get of the table of pending requests returns, provided that the scheduler forgets no goroutine that can go on, that a goroutine which finds the lock free for itself again and again gets it, and that sync.RWMutex keeps its documented promise not to admit readers for ever while a writer waits; GetLogger and SetLevel return as long as no look-up overlaps a registration. The last proviso is needed: without the promise of RWMutex two goroutines that read in turns keep an Add out for ever.", "quantifier": "all infinite executions of any number of goroutines under fair scheduling, all calls and arguments, all capacities", "why_tests_cant": "a liveness property of infinite executions; a test can only wait for some time", "anchors": ["dht/routetable.go: Bucket, RouteTable", "dht/node.go: TxIdGenerator.Next", "misc/syncmap.go: SyncMap", "misc/logger.go: mapLogger, setLevel"]}
{"id": "C97", "title": "What the log says about a download", "statement": "Logging does not change what a download does. A download whose dial fails logs nothing. Otherwise its log ends with a verdict: 'chesum metadata match' with the address and the hex infohash exactly when the data is returned; 'chesum metadata not match' with the size of the last accepted extended handshake exactly when all pieces came and the hash is wrong; 'FetchMetaData err' exactly when the download was broken off, together with the reason (the text of the complaint logged just before, a runtime error, or a missing field with a stack); nothing when time is up. The last record of a job is 'chesum metadata match' exactly when its file was written completely, and it then names the file. 'fetchHandler panic' is logged only for announces that lack a field. A peer cannot inflate or forge the log: at most two records more than reads of the connection, every text is one of 23 constants, the peer's strings occur in JSON only, and every record is one line (except the stack after a missing field) whatever bytes the peer sends. A keep-alive leaves no record; every other message of the peer leaves one with its type (and extension id) and length, a metadata message its numbers, and one that is not a piece an error as well.", "quantifier": "all announces, addresses, infohashes, bytes sent by the peer, failures of the connection and the file system, map orders, interference of other downloads", "why_tests_cant": "ranges over all byte streams of a peer and all points at which a connection or write can fail", "anchors": ["dht/peerwire/bep9.go: FetchMetaData, readMetaDataHandler, handleExtendedMsg, handshakePeer, initialMessages", "dht/peerwire/bep3.go, bep10.go: peerWireLogger.Panic", "dht/fetchtorrent.go: fetchHandler, flushTorrentFile", "misc/logger.go: Panic"]}
{"id": "C98", "title": "What the log says about the route table", "statement": "Logging does not change what an insertion does. Creating a table writes one record with the size of its buckets. A refused insertion writes exactly one record with the size (and the bucket); an insertion that returns nil without splitting writes none; one that splits writes one Trace record per split with the new index, one refusal record if the node was dropped behind the splits, and possibly one alarm 'the route table add fail' per split. The alarm is raised at a split iff the node was dropped or some insertion before was a counted duplicate: after the first counted duplicate every split raises it, stored or not. Over any history the split records carry the indices 1,2,3,... without gap or repetition up to the index of the last bucket, and there are at most one record per node offered plus two per split; records contain fixed texts and numbers only.", "quantifier": "every table reachable by any history of insertions, every node, all k and capacities (alarm: k >= 1)", "why_tests_cant": "Ranges over all histories of insertions and all depths of nested splits.", "anchors": ["dht/routetable.go: rtableLogger, NewRouteTable, AddNode, addNode, addNodeWithsplitBucket, nodeCount"]}
{"id": "C99", "title": "The table's lock and the buckets' locks together", "statement": "When any number of goroutines use the route table at once, its lock and the locks of its buckets never get in each other's way: a goroutine working on the table never waits for a bucket's lock, can always take its next step and leaves the table after a number of own steps that no other goroutine changes; there is no deadlock, also with Go's preference for waiting writers. A goroutine holds at most one bucket's lock at a time and none once its call has returned, by a panic or otherwise; a bucket is read only under its lock and written only under its write lock. Each key of the table leads to its own bucket, and every completed call answers what a sequential table answers after some prefix of the insertions.", "quantifier": "every interleaving of the lock operations and field accesses of any number of goroutines, every node, id, k and capacity", "why_tests_cant": "Ranges over all schedules of two levels of locks; a deadlock or a race shows in few of them.", "anchors": ["dht/routetable.go: Bucket, RouteTable, NewRouteTable, Find, FindClosest, AddNode, addNode, addNodeWithsplitBucket, Size, Full"]}
{"id": "C100", "title": "What the log says about the life of the program", "statement": "The log statements of start-up, receive loop, server loop and shutdown do not change what the program does, and every run has a log. Each goroutine's records are a beginning of a fixed script. Main: per bootstrap host the attempt and its outcome (a failed one is the last and ends the process), then waiting, signal, cleaning, either 'shutdown clean all' or 'shutdown timeout', then 'shutdown finish...'; when the process has ended the script is complete. Run: its steps, then one record per packet taken in order, none before all bootstraps have succeeded. Receiver: one record per datagram read, with sender and length, and per failed read; a packet is reported read before it is reported taken. Clean-up: closing, closed, server closed, only after 'start cleaning...'. The log does not run ahead of the facts. If 'enter listen loop...' was written before 'start cleaning...', then 'shutdown clean all' stands behind all the clean-up's records; otherwise it may be written although nothing was closed. After 'close udp conn' the receiver writes at most one more record. Once a signal has arrived and bootstrapping is over, the main goroutine can always go on to its last record.", "quantifier": "every interleaving of the goroutines, all bootstrap hosts with any resolution result, all packets, failing reads and sends, any moments of signals and the timeout", "why_tests_cant": "Ranges over all schedules of four writing goroutines and all runs; the misleading log appears only in rare schedules.", "anchors": ["cmd/root.go: rootCmd", "dht/dht.go: Run, BootStrap", "misc/shutdown.go: WaitShutdown, waitCleans, runCleans", "dht/krpc/server.go: Listen, Close", "dht/krpc/udp.go: recvRoutiue, close, SendPacket", "misc/workpool.go: NewWorkPool"]}
{"id": "C101", "title": "The whole crawler, from the socket to the disk, as one system", "statement": "Start-up, signals and shutdown, the receive goroutine, the packet queue, the handlers, the pending requests, transaction counter and route table they share, the job channel, the downloads and the files run together in one process. Datagrams read are handed on in the order in which they were read, each handled at most once, none lost while the process lives; at most 2*W1+102 have been read and are not yet handled (W1: size of the RPC pool). While the program still bootstraps no packet is handled, nothing is downloaded, no file touched. The process ends only because a bootstrap host does not resolve or cannot be written to, because a signal has arrived (main returns, or the late registration of a clean-up kills it), or because no memory is left for a download; no datagram and no handler ends it, and afterwards nothing changes. After the socket is closed no datagram is read, no host is contacted and every message of a handler fails. In its whole life the program sends to at most 1288 addresses besides the bootstrap hosts and those who query it, has at most 65536 pending requests, one per transaction id, and its route table holds only itself and nodes to which a chain of answered queries leads from a bootstrap host. A file that changed comes from an announce_peer query read from the socket while the server listened, is named after the announced info hash, and holds nothing but bytes in place of data with that SHA-1 delivered by the announcing peer, or zeros. Without the directory 'torrent' nothing is ever written. Start-up is never stuck; a running handler is never stuck except before a full job channel; when nothing more happens every packet handed on has been handled and every announce among them downloaded to its end. For any datagrams such an execution exists, and it can be ended in good order.", "quantifier": "every interleaving of all goroutines, all datagrams, all peers, all bootstrap hosts, all pool and channel sizes, any moments of signals, failing sends, failing file operations, and the end of the process at any point", "why_tests_cant": "Ranges over all histories of the whole program with unboundedly many datagrams and all schedules of thousands of goroutines; a test runs one.", "anchors": ["cmd/root.go: rootCmd", "dht/dht.go: Run, BootStrap", "dht/krpc/udp.go: recvRoutiue, SendPacket, close", "dht/krpc/server.go: Listen", "misc/workpool.go: AsyncSubmit, worker", "misc/shutdown.go: WaitShutdown", "dht/requesthandler.go, dht/resphandler.go: handlers", "dht/fetchtorrent.go: fetchTorrent, fetchHandler, flushTorrentFile", "dht/routetable.go: RouteTable"]}
{"id": "C102", "title": "Under a fair scheduler the whole program does its work, from the socket to the disk", "statement": "In every fair execution of the whole process, from its start, with datagrams arriving for ever: the server comes to listen and keeps listening; the receive goroutine is never blocked for ever, whatever is in the queue; every datagram read from the socket enters the queue and is handled to the end, doing exactly what its handler's code says under the answers of the shared objects; every query read from the socket is answered by exactly one datagram, sent to its source with its transaction id (a response if it is answerable, an error message otherwise); an announce_peer query read from the socket whose peer delivers a torrent with the announced SHA-1 leads to the file named after the hash, which holds the torrent and keeps it, provided that no file operation fails and the torrent is not announced for ever; a peer that follows the protocol is such a peer. Such executions exist for any datagrams.", "quantifier": "every infinite execution of the whole program in which no goroutine that can go on is forgotten, all datagrams, peers, pool and channel sizes", "why_tests_cant": "A liveness property of infinite executions with unboundedly many datagrams; a test sees a finite prefix of one schedule.", "anchors": ["cmd/root.go: rootCmd", "dht/dht.go: Run, BootStrap", "dht/krpc/udp.go: recvRoutiue", "dht/krpc/server.go: Listen", "misc/workpool.go: AsyncSubmit, worker", "dht/fetchtorrent.go: fetchTorrent, fetchHandler, flushTorrentFile"]}
{"id": "C103", "title": "The end of the program and its next life", "statement": "In every execution that does not forget the goroutine that starts the program up and the main goroutine, once SIGINT or SIGTERM has arrived, at whatever moment, the process ends and nothing happens afterwards, whatever the network, the handlers, the downloads and the clean-up do. From every moment after the bootstrap one signal can end the process in at most six steps, in which nothing is done for packets, downloads or files: nothing under way is waited for. Over any number of lives of the process, each ended at any moment and in any way: every file is as it was before the first start or comes from an announce read from the socket in one of the lives, is named after its info hash and holds only bytes, at their places, of data with this SHA-1 that a peer has delivered, or zeros; a file stays as a life found it unless an announce of its info hash is read in this life (nothing is repaired at the start); once a download of the torrent has been written to the end, without a failing call and without another download of it under way, the file is complete whatever earlier lives left. Ending the program can destroy a complete file, even in good order: an announce of a torrent already on the disk empties the file, and a signal at this moment leaves it empty. Every life uses the same transaction ids: the query to the k-th bootstrap host always has the id for 1001+k, so late responses to an earlier life are taken for responses to this one.", "quantifier": "every execution, every moment of the end, every number and sequence of lives, all datagrams, peers and initial files", "why_tests_cant": "Quantifies over all moments at which the process may end, over sequences of restarts and over infinite executions.", "anchors": ["misc/shutdown.go: Wait4Shutdown, runCleans", "cmd/root.go: rootCmd", "dht/fetchtorrent.go: flushTorrentFile", "dht/dht.go: BootStrap, Run", "dht/krpc/server.go: TxIdGenerator", "dht/krpc/server.go: Close"]}
{"id": "C104", "title": "How deep the codec recurses", "statement": "Decoding n bytes, well-formed or not, never has more than 2n+1 calls of the codec active at once, so a received datagram causes at most 2049 nested calls and a message of a peer at most 65537: with stack frames of up to 15000 bytes neither can exhaust a goroutine stack of 10^9 bytes (which would end the process, without a panic that could be recovered). Encoding to n bytes has at most n calls active at once. The bounds are nearly reached: there is a datagram of 1024 bytes with 2042 nested calls. The torrent command reads files without a limit on their length, so it has no such bound: for every n there is a valid file of 2n+8 bytes that is decoded with more than 2n nested calls, so for every limit of the stack some valid file ends the command.", "quantifier": "all byte strings, all values that can be encoded, all files, every limit of the stack", "why_tests_cant": "A test decodes a few inputs; that no input of any shape nests deeper, and that no limit suffices for the torrent command, ranges over all inputs.", "anchors": ["misc/beancode.go: DecodeDict, DecodeDictNoLimit, DecodeSlice, innerDecodeSlice, innerDecodeDict, decodeItem", "misc/beancode.go: EncodeDict, EncodeSlice, encodeItem", "cmd/torrent.go: printTorrentInfo", "dht/krpc/udp.go: StartUdpServer"]}
{"id": "C105", "title": "Every command opens the crawler's socket; one process per port", "statement": "Whatever a process of the program is started for, be it only to print its version, it reads or creates the configuration file, decodes the sections dht, fetchTorrent and logger, opens the configured UDP port and makes the channel for info hashes before its command begins; a command runs only in a process that holds the port, and any command can start where the port is free and the configuration is sound or missing. For any number of processes started in one directory, in any interleaving, also with other programs that open ports and with edits of the file: at most one process has a given port open, two processes with the same configured port are never in their commands at once, so saved torrents cannot be listed while the crawler runs and a crawler cannot start while a listing does; as long as the port is held by anybody, the next thing that happens to a process about to open it is its end, without output. Output appears only in the last step of a process that runs version or torrent and holds its port, and is exactly the text of the command. The program never changes a configuration file: it creates one with the defaults where there was none, and of several processes that have found none only one can create it, the others die. An ended process releases its port, stays ended and prints nothing more.", "quantifier": "every number of processes, every command, every interleaving of their steps with other programs and edits, every configuration", "why_tests_cant": "Ranges over all interleavings of arbitrarily many processes; a test starts one or two at chosen moments.", "anchors": ["main.go: main", "cmd/root.go: init, ExecuteBackgroud", "cmd/version.go: version", "cmd/torrent.go: torrent", "config/config.go: init, ResetConfig, getSubConfig", "dht/dht.go: localAddr, rtable, rpcServer", "dht/fetchtorrent.go: recvInfoHash", "dht/krpc/udp.go: StartUdpServer"]}
{"id": "C106", "title": "What is kept of a packet does not change when its buffer is used again", "statement": "Decoded strings are not copies but places inside the string that was decoded, and two conversions between strings and byte slices do not copy either. Still, whatever is kept of a packet (an announce waiting in the channel of info hashes, a node of the route table, a request) reads at every later moment exactly as the decoding of the bytes the packet had when it was handled, however often its receive buffer, or any other buffer of the pools, has been reused and overwritten since; the same holds of a file read by the torrent command, which is decoded without a copy. This depends on the one copy made when a packet is handled: with the conversion used for messages of peers, the info hash of a waiting announce would turn into bytes of another packet. For those messages the conversion is sound because only numbers are taken from them. Extending a string converted to a byte slice never writes into the string.", "quantifier": "all packets and files, all sequences of receiving, handling, reusing and overwriting buffers, all later moments, all substrings", "why_tests_cant": "The damage done by shared memory depends on what later packets overwrite and when; it must be excluded for all histories.", "anchors": ["misc/strings.go: Str2Bytes, Bytes2Str", "misc/beancode.go: innerDecodeString, decodeItem, innerDecodeSlice, innerDecodeDict, DecodeDict, DecodeDictNoLimit", "dht/krpc/server.go: recvPacketHandle", "dht/peerwire/bep9.go: parseExtendedFetchMetaMsg", "cmd/torrent.go: printTorrentInfo", "dht/fetchtorrent.go: fetchHandler", "misc/bytespool.go: Put, GetBySize"]}
{"id": "C107", "title": "The configuration is accessed without a race", "statement": "The map of configuration sections has no lock, nor has the library that decodes them, and three goroutines access them. In every interleaving of the crawler's goroutines no access overlaps a write by another goroutine and never two goroutines are in the library at once (either could end the process); goroutines other than the first only look up sections that are already there, so they never decode, store or panic. More generally this holds of every program in which the first goroutine accesses each section once before it starts another goroutine; it fails if the sections were read only where they are used.", "quantifier": "every interleaving of all goroutines; every program with the same discipline", "why_tests_cant": "A race shows only in particular interleavings; its absence must be proved for all of them.", "anchors": ["config/config.go: configMap, getSubConfig, DhtConfig, FetchTorrentConfig, PProfConfig, LoggerConfig", "dht/dht.go: localAddr, Run", "dht/fetchtorrent.go: recvInfoHash, fetchTorrent", "dht/krpc/server.go: Listen", "cmd/root.go: rootExectueFunc", "main.go: main"]}
{"id": "C108", "title": "What the configured sizes do", "statement": "For every value of the three configured sizes: a pool size that is negative or too great for a Go channel ends the process by a panic, but only after all bootstrap hosts have been contacted and the handlers registered; with such a size of the server's pool no packet is ever handled, with such a size of the other pool no download is ever begun, and no fair execution goes on for ever; sizes in range give pools of exactly that size. Size 0 of the server's pool: the program runs, answers nothing, notes nothing, downloads nothing, writes nothing, and reads at most 102 datagrams (exactly 102 if that many come). Size 0 of the download pool: nothing is ever downloaded or written, at most Q+1 announces are taken in, and 1+Q+W1 announces bring all handlers to a halt for ever. Capacity 0 of the queue of jobs: no obstacle, jobs are handed over directly.", "quantifier": "every size (any integer), every interleaving, every sequence of datagrams", "why_tests_cant": "The sizes come from a file that users edit; all values, also those no test tries, and all schedules have to be covered, and 'for ever' cannot be tested.", "anchors": ["misc/workpool.go: NewWorkPool, init, AsyncSubmit, workerLoop", "dht/krpc/server.go: Listen", "dht/fetchtorrent.go: recvInfoHash, fetchTorrent", "dht/dht.go: Run", "config/config.go: dhtConfig, fetchTorrentConfig"]}
{"id": "C109", "title": "Receive buffers are bounded and reused", "statement": "With W packet workers (and so W places in the work pool's queue), the UDP server never owns more than 2 W + 102 receive buffers, in use or pooled, each of 1024 bytes, whatever it receives and for however long. A buffer is allocated only while none is pooled. If 2 W + 102 <= 10000 (4102 with the default configuration), no buffer is ever dropped by the pool: every buffer ever allocated is in use, pooled, or was lost by a read that failed, so over its whole life the server allocates at most 2 W + 102 buffers, and one more for every failed read.", "quantifier": "every W, every sequence of datagrams and read errors, every interleaving of the receive routine, Listen, the workers and Close", "why_tests_cant": "A bound over unbounded executions and all schedules; leaks show only after long runs.", "anchors": ["dht/krpc/udp.go: recvRoutiue", "dht/krpc/server.go: Listen, recvPacketHandle, bytesPool", "misc/bytespool.go: GetBySize, Put"]}
{"id": "C110", "title": "A download among other downloads", "statement": "While other downloads of the same process take buffers from the shared pool, write into buffers they own and give them back, in any order and any number, at every step of a download: the verdict on a peer that keeps the framing (handshake, then length-prefixed messages) is a function of the messages alone as far as failing, waiting and the number of bytes read are concerned. A stream the protocol rejects ends in 'FetchMetaData err' and not later than at the offending message; a stream that stops early ends in 'FetchMetaData err'; a stream that completes yields a block of exactly the announced pieces' total length, returned if its hash is the info-hash and 'check sum err' otherwise. Nothing the others do changes the buffers the download holds, and a whole download, whatever its peer sends and however it ends, is itself such a proper user of the pool. The content is the peer's content for a metadata of one piece if nobody writes the returned buffer before it is copied, and for any number of pieces if the others leave the buffers alone in which pieces were received and the download itself does not take such a buffer again; without that, one other download suffices to make an honest one-piece download fail with 'check sum err'.", "quantifier": "every stream of messages, every behaviour of the other downloads that only uses the pool and buffers they own, at every step, every pool contents", "why_tests_cant": "Interference from other goroutines can occur between any two steps; a test observes a handful of schedules.", "anchors": ["dht/peerwire/bep9.go: FetchMetaData, handleExtendedMsg", "misc/bytespool.go: GetBySize, Put"]}
{"id": "C111", "title": "Any number of downloads, in any schedule", "statement": "Any number of FetchMetaData calls run at the same time on one buffer pool, and may be interrupted at every use of the connection, of the pool and of a buffer. In every schedule: whatever a call returns is an error without data or data whose hash is the info-hash asked for; whether a call fails because of its peer's messages, how many bytes it then has read, and how many bytes it checks are decided by the messages of its own peer alone; no buffer is ever in use by two calls, or in use and in the pool; no call waits for another, and no schedule is endless. For each call there is a behaviour of other, proper users of the pool among which one call alone does the same. In schedules in which the others leave alone the buffers in which a call received pieces (and it does not take one again itself) its data are exactly what its peer sent; without that the schedule decides: the same two honest downloads both succeed in one schedule and one fails in another.", "quantifier": "every number of downloads, every schedule of them at every use of something shared, every peer of each, every pool contents", "why_tests_cant": "The number of schedules grows exponentially with the number of steps; a test runs a few, and cannot choose them.", "anchors": ["dht/peerwire/bep9.go: FetchMetaData, readMetaDataHandler, handshakePeer, initialMessages", "dht/peerwire/bep3.go: readBytesByPrefixLenMsg", "dht/peerwire/peer.go: peerBytesPool", "misc/bytespool.go: GetBySize, Put"]}
{"id": "C112", "title": "Downloads under way, and how many receive buffers there are", "statement": "In every schedule of any number of FetchMetaData calls, and at every moment of it, what each call has done so far is the beginning of what one whole call does among other proper users of the pool. At every moment each call has at most one 32768-byte receive buffer that it did not give back, also after it failed, and it takes no buffers but these and 4-byte ones. If at no time more than P calls are under way (and the pool starts with at most P of them), there are at no time more than P 32768-byte buffers in the pool and in use together, however many calls follow one another.", "quantifier": "every number of downloads, every schedule and every moment of it, every peer of each, every bound P, every pool contents", "why_tests_cant": "The bound must hold at every moment of exponentially many schedules and for any length of history; a test samples a few moments of a few schedules.", "anchors": ["dht/peerwire/bep9.go: FetchMetaData, readMetaDataHandler", "dht/peerwire/bep3.go: readBytesByPrefixLenMsg", "dht/peerwire/peer.go: peerBytesPool", "misc/bytespool.go: GetBySize, Put"]}
{"id": "C113", "title": "The whole crawler with its downloads running at the same time", "statement": "Run the whole process with every download advancing from one use of its connection, of the pool or of a buffer to the next, between the steps of all other goroutines, all downloads on one memory and one pool. Whatever such an execution does to files, world and network is what the process does when each download is taken as one call among proper users of the pool. A file under torrent/ changes only for an announce_peer query that was received, recorded and answered, and then holds a part of data with the announced SHA-1 hash that this very download returned. At every moment there are at most as many 32768-byte receive buffers as download workers; no buffer is held by two downloads, or by one and the pool. A download whose peer sends everything ends in writing data of the right length with the announced hash, or in writing nothing. No download waits for anything but its own connection, no schedule runs one for ever, and when nothing is left to do every announce that arrived has been recorded and its download is over.", "quantifier": "every packet history, every schedule of all goroutines, every peer of every download, every worker and queue size, every moment of the execution", "why_tests_cant": "The interleavings of network, handlers, workers and uses of shared buffers are unboundedly many; a test runs one of them.", "anchors": ["main.go: main", "dht/fetchtorrent.go: fetchTorrent, fetchHandler, flushTorrentFile", "dht/peerwire/bep9.go: FetchMetaData", "dht/peerwire/peer.go: peerBytesPool", "misc/workpool.go: NewWorkPool"]}
{"id": "C114", "title": "Under a fair scheduler the crawler, with its downloads running at the same time, does its work", "statement": "In every execution of the whole process in which downloads advance from one use of connection, pool or buffer to the next, the process lives on, and no goroutine that can go on is forgotten for ever: the server listens in the end; every datagram read from the socket is handled to the end, every query among them answered by exactly one datagram; every download that runs comes out, and every announce_peer read from the socket gets its download run to the end, after which the worker returns to its pool; if the download delivered data with the announced hash, the file named after the hash holds this data from some moment on, for ever (no file operation fails, the hash is announced finitely often, and no two downloads deliver different data with one hash). A reachable peer that sends all announced pieces makes its download deliver data of the announced length.", "quantifier": "every fair infinite execution, every packet history, every order in which goroutines and downloads take their turns, every peer, every worker and queue size", "why_tests_cant": "That something happens in the end in every fair infinite execution cannot be observed in any finite test run.", "anchors": ["main.go: main", "dht/krpc/server.go: Listen", "dht/fetchtorrent.go: fetchTorrent, fetchHandler, flushTorrentFile", "dht/peerwire/bep9.go: FetchMetaData", "misc/workpool.go: NewWorkPool, AsyncSubmit"]}
{"id": "C115", "title": "From the announce to the right file: a download that is spared, one worker, and what the schedule decides", "statement": "In the whole process, with its downloads running at the same time: if between any two of its steps nobody writes into the buffers in which a download has received pieces (and no later read of its own takes one of them again), then a download from a peer that sends every announced piece delivers exactly what the peer sent if this has the announced hash, and otherwise ends with the check sum error and stores nothing; for metadata of one piece the condition on its own reads is not needed. With one worker for downloads every download is spared, so that under a fair scheduler the data of one piece that a reachable peer sends for its announce is in the file named after the hash from some moment on, for ever; with more pieces the same holds of a spared download whose buffers are not taken again. With more than one worker the schedule decides: from one and the same state of the process, with the same two honest peers, one order of turns ends with the right data and another with a check sum error, and no file.", "quantifier": "every execution and every fair infinite execution, every packet history, every order of turns, every peer, every number of workers", "why_tests_cant": "Whether a buffer is overwritten between two uses depends on the interleaving of goroutines, and that the file appears in every fair infinite execution cannot be observed in a finite run.", "anchors": ["dht/peerwire/bep9.go: FetchMetaData", "dht/peerwire/peer.go", "dht/fetchtorrent.go: fetchTorrent, fetchHandler, flushTorrentFile", "misc/bytespool.go: GetBySize, Put", "misc/workpool.go: AsyncSubmit", "main.go: main"]}
{"id": "C116", "title": "A process with one download worker stores (almost) no torrent of two or more pieces", "statement": "In the whole process, a download that nobody else comes between uses at most as many receive buffers in turn as there are download workers, and what is checked at its end \u2013 and stored if its hash is right \u2013 is the announced pieces as these buffers hold them after all messages. With one download worker this is so for every download in every execution, with one buffer: whatever an honest peer sends in order, the place of every piece of metadata of two or more pieces holds the last piece and what it leaves over of the one before. So nothing is stored for metadata in which a piece is not the beginning of the one before it, unless SHA-1 collides; this in spite of a reachable peer that sends every announced piece, with the announced hash. If this is so of every download of a hash, the file named after the hash is at every moment as it was before the process began.", "quantifier": "every execution, every packet history, every order of turns, every peer that keeps the framing, every number and size of pieces", "why_tests_cant": "That the data is lost in every execution, whatever the history of the process and of its pool of buffers, is a statement about all executions.", "anchors": ["dht/peerwire/bep9.go: FetchMetaData", "dht/peerwire/bep3.go", "dht/peerwire/peer.go", "misc/bytespool.go: GetBySize, Put", "dht/fetchtorrent.go: fetchTorrent, fetchHandler", "misc/workpool.go: NewWorkPool"]}
