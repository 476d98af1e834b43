{"id": "C01", "title": "Frame header round trip", "statement": "Whenever encodeHeader() accepts its arguments and writes a header, decodeHeader() applied to a buffer starting with those bytes (and holding either only part of the frame, or the whole frame with a final byte other than 0x00/0xff) accepts it, returns the same header length, and yields the same length, type, secure flag, sequence number, ID and body length.", "quantifier": "all frame types, sequence numbers, IDs of every length, body and trailer lengths, buffer sizes and following bytes", "why_tests_cant": "the argument space (IDs, lengths, types, buffer tails) is far too large to enumerate and the length-field bounds interact", "anchors": ["content/OTRadioLink/utility/OTRadioLink_SecureableFrameType.cpp:SecurableFrameHeader::encodeHeader", "content/OTRadioLink/utility/OTRadioLink_SecureableFrameType.cpp:SecurableFrameHeader::decodeHeader"]}
{"id": "C02", "title": "Header decoder accepts exactly the documented language", "statement": "decodeHeader() accepts a buffer if and only if it satisfies the documented 'quick integrity checks' (length 4..63, type not 0 or 0x7f, ID length <=8 and <= fl-4, whole header present, body fits, last byte if present not 0x00/0xff, nonsecure trailer exactly 1 byte, secure trailer non-empty).", "quantifier": "all byte strings of any length", "why_tests_cant": "a test suite samples frames; acceptance of every malformed frame must be excluded", "anchors": ["content/OTRadioLink/utility/OTRadioLink_SecureableFrameType.cpp:SecurableFrameHeader::decodeHeader", "content/OTRadioLink/utility/OTRadioLink_SecureableFrameType.h:SecurableFrameHeader"]}
{"id": "C03", "title": "Header decoder never reads outside the supplied buffer", "statement": "decodeHeader() never reads a byte at or beyond the supplied buffer length, for any buffer contents.", "quantifier": "all byte strings of any length, including hostile ones from the radio", "why_tests_cant": "memory safety must hold for every attacker-supplied frame", "anchors": ["content/OTRadioLink/utility/OTRadioLink_SecureableFrameType.cpp:SecurableFrameHeader::decodeHeader"]}
{"id": "C04", "title": "Header encoding is canonical", "statement": "Any header that decodeHeader() accepts is reproduced byte for byte by encodeHeader() from the decoded fields, so two different header byte strings never decode to the same header.", "quantifier": "all accepted buffers", "why_tests_cant": "needs all accepted inputs", "anchors": ["content/OTRadioLink/utility/OTRadioLink_SecureableFrameType.cpp:SecurableFrameHeader::encodeHeader", "content/OTRadioLink/utility/OTRadioLink_SecureableFrameType.cpp:SecurableFrameHeader::decodeHeader"]}
{"id": "C05", "title": "Non-secure frame round trip", "statement": "If encodeNonsecureSmallFrame-style encoding (encodeNonsecureOnStack/encodeNonsecure) succeeds, then decoding the produced bytes succeeds, returns the same number of bytes and delivers the same type, sequence number, ID and body.", "quantifier": "all types, IDs, bodies and buffer sizes", "why_tests_cant": "unbounded combination of field values", "anchors": ["content/OTRadioLink/utility/OTRadioLink_SecureableFrameType.cpp:encodeNonsecure", "content/OTRadioLink/utility/OTRadioLink_SecureableFrameType.cpp:decodeNonsecure"]}
{"id": "C06", "title": "Non-secure frame corruption of one bit is rejected", "statement": "If a valid non-secure frame has any single bit flipped in any byte other than its length byte, the decoder rejects it.", "quantifier": "all valid frames and all bit positions", "why_tests_cant": "needs every frame and every error position; follows from CRC algebra", "anchors": ["content/OTRadioLink/utility/OTRadioLink_SecureableFrameType.cpp:SecurableFrameHeader::computeNonSecureCRC", "content/OTRadioLink/utility/OTV0P2BASE_CRC.cpp:crc7_5B_update"]}
{"id": "C07", "title": "Message counter comparison is numeric order", "statement": "msgcountercmp() is negative, zero or positive exactly as the first 6-byte counter is numerically less than, equal to or greater than the second in big-endian order.", "quantifier": "all pairs of 6-byte counters", "why_tests_cant": "2^96 pairs", "anchors": ["content/OTRadioLink/utility/OTRadioLink_SecureableFrameType.h:SimpleSecureFrame32or0BodyRXBase::msgcountercmp"]}
{"id": "C08", "title": "Message counter addition adds, or fails without rolling over", "statement": "msgcounteradd(counter, delta) either returns true with the counter increased by exactly delta, or returns false with the counter unchanged, and it only fails when the true sum does not fit in 6 bytes.", "quantifier": "all 6-byte counters and all 8-bit deltas", "why_tests_cant": "2^56 inputs; the failing region is a carry chain of five 0xff bytes that random tests do not hit", "anchors": ["content/OTRadioLink/utility/OTRadioLink_SecureableFrameType.cpp:SimpleSecureFrame32or0BodyRXBase::msgcounteradd"]}
{"id": "C09", "title": "Padding round trip and layout", "statement": "pad32BBuffer() on data of length n<=31 leaves the data bytes unchanged, zeroes the gap, records the pad count in the last byte and returns 32; unpad32BBuffer() of the result returns n; longer data is refused.", "quantifier": "all buffers of 32 bytes and all data lengths", "why_tests_cant": "all contents and lengths", "anchors": ["content/OTRadioLink/utility/OTRadioLink_SecureableFrameType.cpp:SimpleSecureFrame32or0BodyBase::pad32BBuffer", "content/OTRadioLink/utility/OTRadioLink_SecureableFrameType.cpp:SimpleSecureFrame32or0BodyRXBase::unpad32BBuffer"]}
{"id": "C10", "title": "Secure raw frame round trip", "statement": "For any key-authenticated encryption pair in which decryption inverts encryption, a frame produced by encodeRaw() is accepted by decodeRaw() with the same key and IV and yields exactly the original plaintext body and length, provided the whole frame is presented.", "quantifier": "all keys, IVs, IDs, types, plaintext bodies of every allowed length, buffer sizes and all cipher functions satisfying the inverse law", "why_tests_cant": "quantifies over ciphers as well as data", "anchors": ["content/OTRadioLink/utility/OTRadioLink_SecureableFrameType.cpp:SimpleSecureFrame32or0BodyTXBase::encodeRaw", "content/OTRadioLink/utility/OTRadioLink_SecureableFrameType.cpp:SimpleSecureFrame32or0BodyRXBase::decodeRaw"]}
{"id": "C11", "title": "Secure frame acceptance binds every byte", "statement": "If decodeRaw() accepts a frame then the authenticated decryption function accepted exactly (header bytes as AAD, body ciphertext, 16-byte tag taken from the frame, supplied IV), and every byte of the frame is either in that AAD, in the ciphertext, in the tag, is the final constant 0x80, or is in the counter area.", "quantifier": "all byte strings presented as frames, all keys and IVs, all cipher functions", "why_tests_cant": "an attacker chooses the frame; needs every byte string", "anchors": ["content/OTRadioLink/utility/OTRadioLink_SecureableFrameType.cpp:SimpleSecureFrame32or0BodyRXBase::decodeRaw"]}
{"id": "C12", "title": "Secure frame wire format", "statement": "Every frame produced by encodeRaw() has length fl+1<=64, secure bit set, sequence number equal to the low nibble of the last IV byte, body length 0 or 32, trailer 23 bytes = 6 counter bytes (IV bytes 6..11) + 16 tag bytes + 0x80.", "quantifier": "all inputs on which encoding succeeds", "why_tests_cant": "all inputs", "anchors": ["content/OTRadioLink/utility/OTRadioLink_SecureableFrameType.cpp:SimpleSecureFrame32or0BodyTXBase::encodeRaw"]}
{"id": "C13", "title": "Secure frame size limits are enforced", "statement": "encodeRaw() returns 0 and produces no frame for any plaintext longer than 31 bytes, any missing key, any ID longer than 8, or any output buffer too small for the frame; it never writes at or beyond the output buffer size.", "quantifier": "all inputs and buffer sizes", "why_tests_cant": "memory safety for every size combination", "anchors": ["content/OTRadioLink/utility/OTRadioLink_SecureableFrameType.cpp:SimpleSecureFrame32or0BodyTXBase::encodeRaw"]}
{"id": "C14", "title": "A secure frame is accepted by a receiver at most once", "statement": "Across any sequence of received frames (replays, reorderings, forged or corrupt ones) the full secure receive path never accepts two frames with the same counter from the same sender, and the accepted counters from one sender strictly increase.", "quantifier": "all finite histories of received byte strings, all association tables", "why_tests_cant": "replay safety is a property of all histories", "anchors": ["content/OTRadioLink/utility/OTRadioLink_SecureableFrameType.cpp:SimpleSecureFrame32or0BodyRXBase::decode", "content/OTRadioLink/utility/OTRadioLink_SecureableFrameType_V0p2Impl.cpp:SimpleSecureFrame32or0BodyRXV0p2::authAndUpdateRXMsgCtr"]}
{"id": "C15", "title": "A rejected secure frame changes nothing", "statement": "If the full secure receive path rejects a frame then the stored receive counters of every associated node are unchanged.", "quantifier": "all byte strings, all receiver states, no write failures", "why_tests_cant": "an attacker must not be able to advance a counter (denial of service) with any forged frame", "anchors": ["content/OTRadioLink/utility/OTRadioLink_SecureableFrameType.cpp:SimpleSecureFrame32or0BodyRXBase::decode", "content/OTRadioLink/utility/OTRadioLink_SecureableFrameType.cpp:SimpleSecureFrame32or0BodyRXBase::_decodeFromID"]}
{"id": "C16", "title": "Secure TX then RX through the full stack", "statement": "A frame produced by encode() at a transmitter is accepted by decode() at a receiver with the same key that has the transmitter's ID associated and whose stored counter is below the transmitted counter; the body is delivered intact and the stored counter becomes the transmitted one.", "quantifier": "all bodies, all counters, all ciphers with the inverse law, all association tables in which the sender is the first match", "why_tests_cant": "end-to-end over all states", "anchors": ["content/OTRadioLink/utility/OTRadioLink_SecureableFrameType.cpp:SimpleSecureFrame32or0BodyTXBase::encode", "content/OTRadioLink/utility/OTRadioLink_SecureableFrameType.cpp:SimpleSecureFrame32or0BodyRXBase::decode"]}
{"id": "C17", "title": "Valve frame body contents", "statement": "encodeValveFrame() puts the valve percentage in body byte 0 if 0..100 and 0x7f otherwise, sets the call-for-stats bit 0x10 in byte 1 exactly when a JSON object is attached, and appends the JSON text without its final '}'; overlong text is refused.", "quantifier": "all percentages 0..255 and all JSON texts", "why_tests_cant": "all texts", "anchors": ["content/OTRadioLink/utility/OTRadioLink_SecureableFrameType.cpp:SimpleSecureFrame32or0BodyTXBase::encodeValveFrame"]}
{"id": "C18", "title": "Secure beacon generation can succeed", "statement": "generateSecureBeacon() returns a non-zero length for a valid key, ID length and adequate buffer.", "quantifier": "all valid inputs", "why_tests_cant": "tests do not cover the argument order; the failure is for every input", "anchors": ["content/OTRadioLink/utility/OTRadioLink_SecureableFrameType.h:SimpleSecureFrame32or0BodyTXBase::generateSecureBeacon"]}
{"id": "C19", "title": "Encoder failure is reported as zero", "statement": "encode() returns 0 (the documented error value) whenever it fails to produce a frame.", "quantifier": "all ID lengths and all counter states", "why_tests_cant": "the failing branch needs an unusual transmitter-ID failure", "anchors": ["content/OTRadioLink/utility/OTRadioLink_SecureableFrameType.cpp:SimpleSecureFrame32or0BodyTXBase::encode"]}
{"id": "C20", "title": "Transmit counters strictly increase for ever", "statement": "The sequence of counters handed out by getNextTXMsgCtr(), across any number of calls, restarts and random seeds, is strictly increasing, as long as the non-volatile part has not reached its last values and stores are not interrupted.", "quantifier": "all call sequences, all restart points, all random bytes, all well-formed initial non-volatile states", "why_tests_cant": "IV reuse anywhere in an unbounded history breaks the cipher", "anchors": ["content/OTRadioLink/utility/OTRadioLink_SecureableFrameType_V0p2Impl.cpp:SimpleSecureFrame32or0BodyTXV0p2::getNextTXMsgCtr", "content/OTRadioLink/utility/OTRadioLink_SecureableFrameType_V0p2Impl.cpp:SimpleSecureFrame32or0BodyTXV0p2::incrementTXNVCtrPrefix"]}
{"id": "C21", "title": "Transmit counter is never all-zero and never wraps", "statement": "getNextTXMsgCtr() never returns success with an all-zero counter, and when the persistent part is exhausted it fails rather than wrapping round.", "quantifier": "all reachable states and random bytes", "why_tests_cant": "exhaustion takes 2^24 restarts", "anchors": ["content/OTRadioLink/utility/OTRadioLink_SecureableFrameType_V0p2Impl.cpp:SimpleSecureFrame32or0BodyTXV0p2::getNextTXMsgCtr"]}
{"id": "C22", "title": "Power failure during a transmit-counter update is safe", "statement": "If power fails after any prefix of the byte writes of incrementTXNVCtrPrefix(), then after restart the persistent prefix reads back as either the old or the new value, never a smaller or corrupted one, and further updates work.", "quantifier": "all well-formed states and all crash points", "why_tests_cant": "crash points inside EEPROM update sequences cannot be unit-tested for every counter value", "anchors": ["content/OTRadioLink/utility/OTRadioLink_SecureableFrameType_V0p2Impl.cpp:SimpleSecureFrame32or0BodyTXV0p2::saveRaw3BytePersistentTXRestartCounterToEEPROM", "content/OTRadioLink/utility/OTRadioLink_SecureableFrameType_V0p2Impl.cpp:SimpleSecureFrame32or0BodyTXV0p2::read3BytePersistentTXRestartCounter"]}
{"id": "C23", "title": "Receive counter update is exact", "statement": "authAndUpdateRXMsgCtr() succeeds only for a counter greater than the stored one, and on success the counter read back for that node is exactly the new one and every other node's counter is unchanged.", "quantifier": "all table states satisfying the storage invariant, all counters, all nodes", "why_tests_cant": "2^48 counters x unary-encoded increments", "anchors": ["content/OTRadioLink/utility/OTRadioLink_SecureableFrameType_V0p2Impl.cpp:SimpleSecureFrame32or0BodyRXV0p2::authAndUpdateRXMsgCtr", "content/OTRadioLink/utility/OTRadioLink_SecureableFrameType_V0p2Impl.cpp:SimpleSecureFrame32or0BodyRXV0p2::getLastRXMsgCtr"]}
{"id": "C24", "title": "Power failure during a receive-counter update never lets a counter go backwards", "statement": "If power fails after any prefix of the byte writes of authAndUpdateRXMsgCtr(), the counter read back afterwards (when readable) is never less than the previously stored one, so no earlier frame can be replayed.", "quantifier": "all states satisfying the storage invariant, all new counters, all crash points", "why_tests_cant": "crash points at every byte write, for every counter", "anchors": ["content/OTRadioLink/utility/OTRadioLink_SecureableFrameType_V0p2Impl.cpp:SimpleSecureFrame32or0BodyRXV0p2::updateRXMessageCount", "content/OTRadioLink/utility/OTRadioLink_SecureableFrameType_V0p2Impl.cpp:SimpleSecureFrame32or0BodyRXV0p2::authAndUpdateRXMsgCtr"]}
{"id": "C25", "title": "One power failure does not lock a node out", "statement": "After a single power failure at any point of a counter update starting from a state where both stored copies are good, the counter is still readable (the node is not dissociated).", "quantifier": "all two-copy-consistent states, all crash points", "why_tests_cant": "all crash points", "anchors": ["content/OTRadioLink/utility/OTRadioLink_SecureableFrameType_V0p2Impl.cpp:SimpleSecureFrame32or0BodyRXV0p2::getLastRXMsgCtr"]}
{"id": "C26", "title": "Repeated power failures do not lock a node out", "statement": "After any number of power failures, each at any point of a counter update, the node's counter is still readable, as the 'robust in the face of power failures / reboots ... nor forcing node dissociation' documentation promises.", "quantifier": "all sequences of interrupted updates", "why_tests_cant": "needs two crashes at particular points", "anchors": ["content/OTRadioLink/utility/OTRadioLink_SecureableFrameType_V0p2Impl.cpp:SimpleSecureFrame32or0BodyRXV0p2::authAndUpdateRXMsgCtr"]}
{"id": "C27", "title": "Node association set and lookup", "statement": "After clearing and adding any sequence of node IDs (first byte not 0xff) up to the table limit, the count equals the number added, each is retrievable at its index in order, and lookup by prefix returns the first index whose ID starts with the prefix, or -1 if there is none; adding beyond the limit is refused and changes nothing.", "quantifier": "all sequences of IDs and all prefixes", "why_tests_cant": "all tables", "anchors": ["content/OTRadioLink/utility/OTV0P2BASE_Security.cpp:addNodeAssociation", "content/OTRadioLink/utility/OTV0P2BASE_Security.cpp:getNextMatchingNodeID", "content/OTRadioLink/utility/OTV0P2BASE_Security.cpp:countNodeAssociations", "content/OTRadioLink/utility/OTV0P2BASE_Security.cpp:clearAllNodeAssociations"]}
{"id": "C28", "title": "Adding an association leaves a fresh counter", "statement": "addNodeAssociation() leaves the new node's stored receive counter readable as zero, so that any non-zero counter from it is accepted and nothing stale from an earlier node in that slot remains.", "quantifier": "all previous EEPROM contents and IDs", "why_tests_cant": "all stale contents", "anchors": ["content/OTRadioLink/utility/OTV0P2BASE_Security.cpp:addNodeAssociation", "content/OTRadioLink/utility/OTRadioLink_SecureableFrameType_V0p2Impl.cpp:SimpleSecureFrame32or0BodyRXV0p2::getLastRXMsgCtr"]}
{"id": "C29", "title": "Key storage", "statement": "setPrimaryBuilding16ByteSecretKey() followed by get returns that key; clearing makes get fail; a failed get never exposes key bytes as valid.", "quantifier": "all 16-byte keys and all prior EEPROM states", "why_tests_cant": "all keys", "anchors": ["content/OTRadioLink/utility/OTV0P2BASE_Security.cpp:setPrimaryBuilding16ByteSecretKey", "content/OTRadioLink/utility/OTV0P2BASE_Security.cpp:getPrimaryBuilding16ByteSecretKey"]}
{"id": "C30", "title": "7-bit CRC detects all single-bit errors and all short bursts", "statement": "Two equal-length messages that differ in exactly one bit, or in a burst of at most 7 consecutive bits, always have different crc7_5B values, from any equal start value.", "quantifier": "all messages of any length, all error positions and patterns", "why_tests_cant": "needs all messages; follows from linearity", "anchors": ["content/OTRadioLink/utility/OTV0P2BASE_CRC.cpp:crc7_5B_update"]}
{"id": "C31", "title": "7-bit CRC stays in range and is a polynomial remainder", "statement": "crc7_5B over any message returns a value in 0..127, equal to the remainder of the message polynomial (with initial value) modulo x^7+x^5+x^4+x^2+x+1.", "quantifier": "all messages and start values", "why_tests_cant": "all messages", "anchors": ["content/OTRadioLink/utility/OTV0P2BASE_CRC.cpp:crc7_5B_update"]}
{"id": "C32", "title": "Compressed temperature is order preserving with bounded error", "statement": "compressTempC16() is monotonic, saturates at documented limits, never yields the unset value 0xff, and expandTempC16(compressTempC16(t)) is within the documented precision of t and re-compresses to the same byte.", "quantifier": "all 16-bit signed temperatures", "why_tests_cant": "65536 values x pairs for monotonicity", "anchors": ["content/OTRadioLink/utility/OTV0P2BASE_Stats.cpp:compressTempC16", "content/OTRadioLink/utility/OTV0P2BASE_Stats.cpp:expandTempC16"]}
{"id": "C33", "title": "Smoothed stat stays between old and new", "statement": "smoothStatsValue(old,new) always lies between the old and new values (inclusive) whatever the random rounding, and is unchanged if old==new.", "quantifier": "all old/new bytes and random bits", "why_tests_cant": "random rounding", "anchors": ["content/OTRadioLink/utility/OTV0P2BASE_Stats.cpp:NVByHourByteStatsBase smoothStatsValue"]}
{"id": "C34", "title": "Unary counters survive any partial write", "statement": "The 1- and 2-byte unary encodings round trip for every legal value, and advancing from n to n+1 in EEPROM terms only clears bits, so no erase is needed.", "quantifier": "all values 0..16", "why_tests_cant": "exhaustive relation between successive encodings", "anchors": ["content/OTRadioLink/utility/OTV0P2BASE_Stats.h:eeprom_unary_2byte_encode", "content/OTRadioLink/utility/OTV0P2BASE_Stats.cpp:eeprom_unary_2byte_decode"]}
{"id": "C35", "title": "Quartile queries mean what they say", "statement": "inTopQuartile/inBottomQuartile answer true exactly when the set of 24 hourly samples is full (none unset) and at least 18 of them are strictly below/above the value.", "quantifier": "all stored sample sets and values", "why_tests_cant": "2^192 stored sets", "anchors": ["content/OTRadioLink/utility/OTV0P2BASE_Stats.cpp:NVByHourByteStatsBase::inTopQuartile", "content/OTRadioLink/utility/OTV0P2BASE_Stats.cpp:NVByHourByteStatsBase::inBottomQuartile"]}
{"id": "C36", "title": "Min and max of hourly stats", "statement": "getMin/MaxByHourStat return the least/greatest set sample of the day, and the unset value exactly when no sample is set.", "quantifier": "all sample sets", "why_tests_cant": "256^24", "anchors": ["content/OTRadioLink/utility/OTV0P2BASE_Stats.cpp:getMinByHourStat", "content/OTRadioLink/utility/OTV0P2BASE_Stats.cpp:getMaxByHourStat"]}
{"id": "C37", "title": "Variable-length RX queue is a FIFO of exact frames", "statement": "Under any interleaving of whole operations (enqueue by the ISR, peek and remove by the main loop) the queue behaves as a first-in first-out list: a dequeued frame has exactly the bytes and length that were enqueued, in order, none lost, duplicated or overwritten.", "quantifier": "all operation sequences, all frame lengths within the limit, all queue geometries", "why_tests_cant": "wrap-around of variable-length records over unbounded histories", "anchors": ["content/OTRadioLink/utility/OTRadioLink_ISRRXQueue.h:ISRRXQueueVarLenMsgBase::_getRXBufForInbound", "content/OTRadioLink/utility/OTRadioLink_ISRRXQueue.h:ISRRXQueueVarLenMsgBase::_loadedBuf", "content/OTRadioLink/utility/OTRadioLink_ISRRXQueue.h:ISRRXQueueVarLenMsgBase::removeRXMsg", "content/OTRadioLink/utility/OTRadioLink_ISRRXQueue.h:ISRRXQueueVarLenMsgBase::_isFull"]}
{"id": "C38", "title": "RX queue never writes outside its buffer", "statement": "Every frame area handed to the ISR lies wholly inside the queue's buffer and does not overlap any queued frame.", "quantifier": "all reachable queue states", "why_tests_cant": "memory safety under all histories", "anchors": ["content/OTRadioLink/utility/OTRadioLink_ISRRXQueue.h:ISRRXQueueVarLenMsgBase::_getRXBufForInbound"]}
{"id": "C39", "title": "RX queue honours its declared minimum capacity", "statement": "A queue declared with MinQueueCapacityMsgs=N accepts N maximum-size frames whenever it is empty.", "quantifier": "all reachable empty queue states", "why_tests_cant": "depends on where the indices stand after earlier traffic", "anchors": ["content/OTRadioLink/utility/OTRadioLink_ISRRXQueue.h:ISRRXQueueVarLenMsg"]}
{"id": "C40", "title": "Boiler minimum on and off times", "statement": "The boiler output, once on, stays on for at least the minimum on time, less one main-loop tick, from the tick that hears the last call for heat, and once off stays off for at least the minimum off time, for every pattern of valve calls.", "quantifier": "all call patterns and tick sequences in hub mode", "why_tests_cant": "short-cycling protection for all schedules", "anchors": ["content/OTRadioLink/utility/OTRadValve_BoilerDriver.h:OnOffBoilerDriverLogic::processCallsForHeat"]}
{"id": "C41", "title": "Boiler eventually goes off without calls", "statement": "If no valve calls for heat, the boiler output is off after a bounded number of ticks and stays off; in non-hub mode it never turns on.", "quantifier": "all states, all minimum on times", "why_tests_cant": "all states", "anchors": ["content/OTRadioLink/utility/OTRadValve_BoilerDriver.h:OnOffBoilerDriverLogic::processCallsForHeat"]}
{"id": "C42", "title": "Weak calls do not start the boiler", "statement": "Calls below the required threshold never turn the boiler on, and the threshold to keep it running is never higher than the threshold to start it.", "quantifier": "all percentages, minutes and states", "why_tests_cant": "all states", "anchors": ["content/OTRadioLink/utility/OTRadValve_BoilerDriver.h:OnOffBoilerDriverLogic::remoteCallForHeatRX"]}
{"id": "C43", "title": "Simple schedule start, end and duration", "statement": "A programmed schedule starts within the granularity of the requested minute, ends one on-period later modulo a day, and the schedule is 'on now' exactly in that half-open interval, including across midnight.", "quantifier": "all minutes of the day and all programmed times and on-durations", "why_tests_cant": "midnight wrap over all pairs", "anchors": ["content/OTRadioLink/utility/OTRadValve_SimpleValveSchedule.cpp:SimpleValveScheduleBase", "content/OTRadioLink/utility/OTRadValve_SimpleValveSchedule.h:SimpleValveScheduleEEPROM"]}
{"id": "C44", "title": "Corrupt or absent schedule byte means no schedule", "statement": "Any stored byte outside the legal range is treated as no schedule: never on, start reported as unset.", "quantifier": "all stored bytes", "why_tests_cant": "all bytes", "anchors": ["content/OTRadioLink/utility/OTRadValve_SimpleValveSchedule.cpp:SimpleValveScheduleEEPROM::getSimpleScheduleOn"]}
{"id": "C45", "title": "Valve position stays within limits", "statement": "Every computed valve position is between 0 and 100% and an opening move never exceeds the permitted maximum opening.", "quantifier": "all input states, all retained states, all previous positions 0..100", "why_tests_cant": "continuous control over unbounded histories", "anchors": ["content/OTRadioLink/utility/OTRadValve_ModelledRadValveState.h:ModelledRadValveState::computeRequiredTRVPercentOpen", "content/OTRadioLink/utility/OTRadValve_ModelledRadValveState.h:ModelledRadValveState::tick"]}
{"id": "C46", "title": "No rapid reopen after closing or reclose after opening", "statement": "Over any history of ticks, the valve is not opened within the reopen delay after any closing move except when BAKE is requested, and not closed within the reclose delay after an opening move except down to a permitted maximum opening that has been reduced below the position.", "quantifier": "all temperature and target histories", "why_tests_cant": "hunting protection over all histories", "anchors": ["content/OTRadioLink/utility/OTRadValve_ModelledRadValveState.h:ModelledRadValveState::tick", "content/OTRadioLink/utility/OTRadValve_ModelledRadValveState.h:ModelledRadValveState::dontTurndown", "content/OTRadioLink/utility/OTRadValve_ModelledRadValveState.h:ModelledRadValveState::dontTurnup"]}
{"id": "C47", "title": "Frost protection: very cold room opens the valve", "statement": "When the room is far below target (below target minus the proportional range, or below the minimum target) and no anti-hunting hold is in force, the valve opens fully, or by one step per minute in glacial mode until at the limit.", "quantifier": "all input and retained states", "why_tests_cant": "safety for all states", "anchors": ["content/OTRadioLink/utility/OTRadValve_ModelledRadValveState.h:ModelledRadValveState::computeRequiredTRVPercentOpen"]}
{"id": "C48", "title": "Overheated room closes the valve", "statement": "When the room is far above the greater of target and maximum target and no anti-hunting hold is in force, the valve closes completely.", "quantifier": "all input and retained states", "why_tests_cant": "safety for all states", "anchors": ["content/OTRadioLink/utility/OTRadValve_ModelledRadValveState.h:ModelledRadValveState::computeRequiredTRVPercentOpen"]}
{"id": "C49", "title": "Glacial mode moves at most one percent per minute in the proportional range", "statement": "In glacial mode with no BAKE, within the proportional range, one computation changes the valve by at most 1%.", "quantifier": "all states with glacial set", "why_tests_cant": "all states", "anchors": ["content/OTRadioLink/utility/OTRadValve_ModelledRadValveState.h:ModelledRadValveState::computeRequiredTRVPercentOpen"]}
{"id": "C50", "title": "Movement direction is never perverse", "statement": "Within the proportional range and outside BAKE the valve never opens when the (effective) room temperature is at or above the set point (a quarter degree above target), and never closes when below it.", "quantifier": "all states", "why_tests_cant": "all states", "anchors": ["content/OTRadioLink/utility/OTRadValve_ModelledRadValveState.h:ModelledRadValveState::computeRequiredTRVPercentOpen"]}
{"id": "C51", "title": "Cumulative movement counter is exact modulo 1024", "statement": "The cumulative movement figure equals the sum of absolute position changes over all ticks modulo 1024.", "quantifier": "all tick histories", "why_tests_cant": "unbounded histories", "anchors": ["content/OTRadioLink/utility/OTRadValve_ModelledRadValveState.h:ModelledRadValveState::tick"]}
{"id": "C52", "title": "Target temperature stays within safe bounds", "statement": "With settings in their documented ranges computeTargetTemp() returns a temperature at least the FROST setting and at most WARM (in BAKE, WARM plus the uplift), always within [MIN_TARGET_C, MAX_TARGET_C].", "quantifier": "all sensor, occupancy, schedule and mode combinations", "why_tests_cant": "cross product of all sensor states", "anchors": ["content/OTRadioLink/utility/OTRadValve_ModelledRadValve.h:ModelledRadValveComputeTargetTempBasic::computeTargetTemp", "content/OTRadioLink/utility/OTRadValve_Parameters.h:ValveControlParameters"]}
{"id": "C53", "title": "Energy-saving setback is bounded and never applied when wanted warm", "statement": "In WARM mode the target is lowered from WARM by at most the full setback (at a comfort setting the eco setback), and is not lowered at all when the room is occupied, when a schedule is on (unless the room has been vacant for over a day) or when setbacks are locked out; FROST mode gives the FROST target except when pre-warming for a schedule.", "quantifier": "all combinations", "why_tests_cant": "cross product", "anchors": ["content/OTRadioLink/utility/OTRadValve_ModelledRadValve.h:ModelledRadValveComputeTargetTempBasic::computeTargetTemp"]}
{"id": "C54", "title": "BAKE is bounded in time", "statement": "After startBake() the device leaves BAKE within BAKE_MAX_M minute reads unless restarted, and BAKE implies WARM at all times.", "quantifier": "all sequences of mode operations", "why_tests_cant": "all histories", "anchors": ["content/OTRadioLink/utility/OTRadValve_ValveMode.h:ValveMode"]}
{"id": "C55", "title": "Stored FROST and WARM thresholds are consistent", "statement": "With EEPROM-backed temperature control, for any stored bytes the FROST target is at most the WARM target and both lie within the legal range; setting values out of range or inverted is refused.", "quantifier": "all EEPROM contents and set sequences", "why_tests_cant": "all contents", "anchors": ["content/OTRadioLink/utility/OTRadValve_TempControl.h:TempControlSimpleEEPROMBacked"]}
{"id": "C56", "title": "Temperature dial is monotonic", "statement": "On a dial with fewer than ten temperatures (all room-heating parameter sets), whatever the end stops, turning the dial up never lowers the WARM target, which always lies on the scale with the extremes at the ends; the caching of the last result is invisible.", "quantifier": "all dial positions and parameters", "why_tests_cant": "all positions", "anchors": ["content/OTRadioLink/utility/OTRadValve_TempControl.h:TempControlTempPot"]}
{"id": "C57", "title": "FHT8V bit stream round trip", "statement": "The bit stream created for any FHT8V command decodes, at the receiver, to the same house codes, address, command and extension.", "quantifier": "all house codes, commands and extensions", "why_tests_cant": "2^40 commands", "anchors": ["content/OTRadioLink/utility/OTRadValve_FHT8VRadValve.cpp:FHT8VCreate200usBitStreamBptr", "content/OTRadioLink/utility/OTRadValve_FHT8VRadValve.cpp:FHT8VDecodeBitStream"]}
{"id": "C58", "title": "FHT8V bit stream is terminated and bounded", "statement": "For every command the stream contains no 0xff before its terminator and fits with its terminator in the documented buffer size.", "quantifier": "all commands", "why_tests_cant": "2^40 commands", "anchors": ["content/OTRadioLink/utility/OTRadValve_FHT8VRadValve.cpp:FHT8VCreate200usBitStreamBptr"]}
{"id": "C59", "title": "FHT8V decoder never reads past the buffer end", "statement": "The decoder reads no byte beyond the supplied last byte whatever the contents.", "quantifier": "all byte strings", "why_tests_cant": "hostile radio input", "anchors": ["content/OTRadioLink/utility/OTRadValve_FHT8VRadValve.cpp:FHT8VDecodeBitStream"]}
{"id": "C60", "title": "FHT8V percent scaling", "statement": "Percent to 0..255 scaling maps 0 to 0, 100 to 255, is monotonic, and converting back returns the original percentage.", "quantifier": "all percentages", "why_tests_cant": "pairs for monotonicity", "anchors": ["content/OTRadioLink/utility/OTRadValve_FHT8VRadValve.h:convertPercentTo255Scale", "content/OTRadioLink/utility/OTRadValve_FHT8VRadValve.h:convert255ScaleToPercent"]}
{"id": "C61", "title": "Motor position estimate stays in range", "statement": "The calculated valve position is always 0..100% for every pulse count and calibration, and reaching an end stop resets it to exactly fully open or fully closed.", "quantifier": "all calibrations and pulse histories", "why_tests_cant": "all pulse counts", "anchors": ["content/OTRadioLink/utility/OTRadValve_CurrentSenseValveMotorDirect.cpp:CurrentSenseValveMotorDirect::CalibrationParameters::computePosition", "content/OTRadioLink/utility/OTRadValve_CurrentSenseValveMotorDirect.h:CurrentSenseValveMotorDirect"]}
{"id": "C62", "title": "Valve driver start-up order", "statement": "The valve motor driver leaves the error-free start-up sequence only in order (wait, withdraw pin, await fitting, calibrate, run) and a pin-withdraw that takes too long ends in the error state.", "quantifier": "all poll histories and hardware responses", "why_tests_cant": "all histories", "anchors": ["content/OTRadioLink/utility/OTRadValve_CurrentSenseValveMotorDirect.cpp:CurrentSenseValveMotorDirect::poll"]}
{"id": "C63", "title": "JSON frame integrity", "statement": "adjustJSONMsgForTXAndComputeCRC() followed by checkJSONMsgRXCRC() accepts and restores the message; corruption of any single bit of the body is rejected.", "quantifier": "all valid JSON messages and all error bits", "why_tests_cant": "all messages", "anchors": ["content/OTRadioLink/utility/OTV0P2BASE_JSONStats.cpp:adjustJSONMsgForTXAndComputeCRC", "content/OTRadioLink/utility/OTV0P2BASE_JSONStats.cpp:checkJSONMsgRXCRC"]}
{"id": "C64", "title": "JSON writer never overruns and emits balanced output", "statement": "writeJSON() never writes beyond the supplied buffer; when it returns non-zero, that is the length of a well-formed flat JSON object from which a reader gets the ID, the count and stats of the set with their values, none twice; it returns zero exactly when the buffer cannot hold the ID and count, and then changes nothing.", "quantifier": "all stats sets, IDs and buffer sizes", "why_tests_cant": "all buffer sizes", "anchors": ["content/OTRadioLink/utility/OTV0P2BASE_JSONStats.cpp:SimpleStatsRotationBase::writeJSON", "content/OTRadioLink/utility/OTV0P2BASE_JSONStats.cpp:BufPrint"]}
{"id": "C65", "title": "JSON stats table", "statement": "put, putDescriptor, remove, containsKey and isLowPriority on the stats set behave as a bounded map keyed by field name, never exceeding capacity, whatever the swaps inside; writing an object changes no entry but its change mark.", "quantifier": "all operation sequences", "why_tests_cant": "all histories", "anchors": ["content/OTRadioLink/utility/OTV0P2BASE_JSONStats.cpp:SimpleStatsRotationBase::put"]}
{"id": "C66", "title": "Minimal binary stats round trip", "statement": "Writing then extracting the minimal stats payload preserves the power-low flag and the temperature within the documented saturation range, and contains no 0xff byte.", "quantifier": "all temperatures and flags", "why_tests_cant": "all values", "anchors": ["content/OTRadioLink/utility/OTV0P2BASE_SimpleBinaryStats.cpp:writeTrailingMinimalStatsPayload", "content/OTRadioLink/utility/OTV0P2BASE_SimpleBinaryStats.cpp:extractTrailingMinimalStatsPayload"]}
{"id": "C67", "title": "Full binary stats round trip", "statement": "encodeFullStatsMessageCore() followed by decodeFullStatsMessageCore() returns the same fields, the encoding has no 0xff before its terminator, and corruption of a single bit is detected.", "quantifier": "all field combinations", "why_tests_cant": "all field combinations", "anchors": ["content/OTRadioLink/utility/OTV0P2BASE_SimpleBinaryStats.cpp:encodeFullStatsMessageCore", "content/OTRadioLink/utility/OTV0P2BASE_SimpleBinaryStats.cpp:decodeFullStatsMessageCore"]}
{"id": "C68", "title": "Real-time clock counts correctly", "statement": "Starting from a valid time, n ticks advance the clock by exactly n periods modulo a day with the day counter incremented at each midnight; fields always stay in range.", "quantifier": "all start times and tick counts", "why_tests_cant": "unbounded runs", "anchors": ["content/OTRadioLink/utility/OTV0P2BASE_RTC.cpp:TIMER2 ISR tick"]}
{"id": "C69", "title": "Clock persistence after restart", "statement": "After a restart the restored time is a legal time within the documented error of the time last persisted.", "quantifier": "all times and persistence histories", "why_tests_cant": "all histories and crash points", "anchors": ["content/OTRadioLink/utility/OTV0P2BASE_RTC.cpp:persistRTC", "content/OTRadioLink/utility/OTV0P2BASE_RTC.cpp:restoreRTC"]}
{"id": "C70", "title": "Occupancy timeout", "statement": "With no further evidence the room is reported occupied for exactly the timeout in minutes and then vacant; a room marked vacant is at once, and without new evidence stays, reported vacant; vacancy hours count up and saturate without wrapping.", "quantifier": "all evidence histories", "why_tests_cant": "all histories", "anchors": ["content/OTRadioLink/utility/OTV0P2BASE_SensorOccupancy.cpp:PseudoSensorOccupancyTracker::read"]}
{"id": "C71", "title": "Occupancy updates from interrupt and main loop never corrupt the countdown", "statement": "Interleaving, at any point, of an interrupt marking the room occupied with the main loop's decrement never loses the new evidence and never wraps the countdown below zero.", "quantifier": "all interleavings of atomic steps", "why_tests_cant": "schedules", "anchors": ["content/OTRadioLink/utility/OTV0P2BASE_Concurrency.h:safeDecIfNZWeak", "content/OTRadioLink/utility/OTV0P2BASE_SensorOccupancy.cpp:PseudoSensorOccupancyTracker::read"]}
{"id": "C72", "title": "Weak evidence never downgrades strong evidence", "statement": "Marking as possibly or probably occupied never shortens a longer remaining occupancy time.", "quantifier": "all states and evidence sequences", "why_tests_cant": "all states", "anchors": ["content/OTRadioLink/utility/OTV0P2BASE_SensorOccupancy.h:markAsPossiblyOccupied"]}
{"id": "C73", "title": "Errors take priority over warnings", "statement": "A new error always becomes the reported value; a warning never displaces an unexpired error or warning; an un-refreshed report expires after the fixed timeout.", "quantifier": "all sequences of reports and reads", "why_tests_cant": "all histories", "anchors": ["content/OTRadioLink/utility/OTV0P2BASE_ErrorReport.h:ErrorReport::set", "content/OTRadioLink/utility/OTV0P2BASE_ErrorReport.h:ErrorReport::read"]}
{"id": "C74", "title": "Hex parsing is the inverse of hex printing", "statement": "Parsing the two hex digits printed for a byte yields that byte; any other character pair is rejected.", "quantifier": "all bytes and all character pairs", "why_tests_cant": "pairs", "anchors": ["content/OTRadioLink/utility/OTV0P2BASE_Util.h:parseHexByte", "content/OTRadioLink/utility/OTV0P2BASE_Util.h:hexDigit"]}
{"id": "C75", "title": "Scratch space hand-out is disjoint", "statement": "A sub-space carved from a scratch space lies wholly within the parent and does not overlap the reserved prefix; when it cannot fit an empty space is returned.", "quantifier": "all sizes and reservations", "why_tests_cant": "all sizes", "anchors": ["content/OTRadioLink/utility/OTV0P2BASE_Util.h:ScratchSpaceTemplate"]}
{"id": "C76", "title": "Frame handler acts only on authenticated bodies", "statement": "A hub prints, relays or calls for heat, and changes its storage, only on receiving a secure 'O' frame that the secure receive path accepts; and exactly what it does is determined by the authenticated body, sender and message, in the documented way.", "quantifier": "all received byte strings, storage states, keys, ciphers, operations", "why_tests_cant": "all frames", "anchors": ["content/OTRadioLink/utility/OTRadioLink_Messaging.h:serialFrameOperation", "content/OTRadioLink/utility/OTRadioLink_Messaging.h:relayFrameOperation", "content/OTRadioLink/utility/OTRadioLink_Messaging.h:boilerFrameOperation", "content/OTRadioLink/utility/OTRadioLink_Messaging.h:decodeAndHandleOTSecureOFrame"]}
{"id": "C77", "title": "JeeLabs packet round trip and length safety", "statement": "Encoding a JeeLabs OEM packet then decoding it returns the same group, node, flags and body; corrupted single bits are rejected; impossible lengths are refused.", "quantifier": "all bodies and addresses", "why_tests_cant": "all bodies", "anchors": ["content/OTRadioLink/utility/OTRadioLink_JeelabsOemPacket.cpp:JeelabsOemPacket::encode", "content/OTRadioLink/utility/OTRadioLink_JeelabsOemPacket.cpp:JeelabsOemPacket::decode"]}
{"id": "C78", "title": "EEPROM smart update semantics", "statement": "The 'smart' EEPROM helpers leave the cell holding exactly the requested value (or the AND for clear-bits), never alter any other cell, and perform no write when none is needed.", "quantifier": "all cell values, addresses and requests", "why_tests_cant": "all values", "anchors": ["content/OTRadioLink/utility/OTV0P2BASE_EEPROM.cpp:eeprom_smart_update_byte", "content/OTRadioLink/utility/OTV0P2BASE_EEPROM.cpp:eeprom_smart_clear_bits"]}
{"id": "C79", "title": "At most a quarter of hours are outliers", "statement": "inOutlierQuartile() reports at most 6 of the 24 hours as being in the top quartile and at most 6 in the bottom one, whatever is stored.", "quantifier": "all stored sample sets", "why_tests_cant": "2^192 stored sets", "anchors": ["content/OTRadioLink/utility/OTV0P2BASE_Stats.cpp:NVByHourByteStatsBase::inOutlierQuartile"]}
{"id": "C80", "title": "Each hourly statistic is the mean of that hour's samples", "statement": "After the final sample of an hour, the value stored for that hour is the rounded mean of that hour's samples (up to the permitted number), depends on nothing sampled in earlier hours, and no other hour's statistics change.", "quantifier": "all sample sequences, sensor values and sensor availability", "why_tests_cant": "all histories", "anchors": ["content/OTRadioLink/utility/OTV0P2BASE_Stats.h:StatsUpdaterLogic::update_stats_store", "content/OTRadioLink/utility/OTV0P2BASE_Stats.h:StatsUpdaterLogic::divide_to_u8"]}
{"id": "C81", "title": "EEPROM statistics store is a faithful bounded map", "statement": "A statistic set in EEPROM reads back exactly, out-of-range sets and hours are ignored and read as unset, and neither setting nor zapping statistics touches EEPROM outside the statistics area; a zap that reports completion leaves every statistic unset.", "quantifier": "all EEPROM contents, sets, hours and values", "why_tests_cant": "all contents", "anchors": ["content/OTRadioLink/utility/OTV0P2BASE_EEPROM.h:EEPROMByHourByteStats", "content/OTRadioLink/utility/OTV0P2BASE_EEPROM.cpp:EEPROMByHourByteStats::_zapStats"]}
{"id": "C82", "title": "Schedule drives the mode exactly", "statement": "Left alone, with applyUserSchedule() called each minute, the unit is in WARM mode exactly in the minutes when some stored schedule is on, for overlapping schedules and across midnight; a user's manual choice holds until the next schedule start or end.", "quantifier": "all stored schedules, on-times, starting minutes and numbers of minutes", "why_tests_cant": "Interaction of two schedules over unbounded time.", "anchors": ["content/OTRadioLink/utility/utility/OTRadValve_SimpleValveSchedule.cpp: SimpleValveScheduleBase::applyUserSchedule, SimpleValveScheduleParams::isAnyScheduleOnWARMNow"]}
{"id": "C83", "title": "A calling valve never hovers", "statement": "In the proportional range, outside BAKE and with no anti-hunting hold in force, a valve open far enough to call for heat moves at every tick at which the temperature is unchanged: closing if at or above the set point, opening further if below it and below the permitted maximum.", "quantifier": "all states, targets and temperatures in the proportional range", "why_tests_cant": "All combinations of filter, target and position.", "anchors": ["content/OTRadioLink/utility/OTRadValve_ModelledRadValveState.h:ModelledRadValveState::computeRequiredTRVPercentOpen"]}
{"id": "C84", "title": "A steady room ends with the right valve position", "statement": "Whatever happened before, if room temperature and settings then stay the same (outside BAKE): a room at or above the set point leaves the valve not calling for heat within 76 minutes and for ever after; a room more than 0.75C below it leaves the valve open to the permitted maximum within 26 minutes plus one per percent of opening.", "quantifier": "all previous states, targets, steady temperatures and run lengths", "why_tests_cant": "Liveness over unbounded time from every state.", "anchors": ["content/OTRadioLink/utility/OTRadValve_ModelledRadValveState.h:ModelledRadValveState::tick"]}
{"id": "C85", "title": "The dial sensor ignores jitter and follows movement", "statement": "Readings of the temperature dial that differ by less than the hysteresis never change the reported value or count as a user action; the reported value follows real movement; callbacks (FROST, WARM, BAKE, occupancy) are made only when the value changes, never on the first reading, and match the direction and end stop.", "quantifier": "all sequences of dial readings", "why_tests_cant": "all histories of readings", "anchors": ["content/OTRadioLink/utility/OTV0P2BASE_SensorTemperaturePot.h:SensorTemperaturePot::read"]}
{"id": "C86", "title": "Longer darkness never makes it warmer", "statement": "All other inputs equal, a longer time in darkness, or longer vacancy, never raises the target temperature.", "quantifier": "all modes, settings, statistics and pairs of dark times", "why_tests_cant": "pairs of runs", "anchors": ["content/OTRadioLink/utility/OTRadValve_ModelledRadValve.h:CTTBasicLogic::computeTargetTemp"]}
{"id": "C87", "title": "Valve calls for heat only when it should", "statement": "At every reading of the modelled valve: it calls for heat exactly when the room is under target and the valve (and any physical device) is open far enough; the reported setback is exactly how far the target is below WARM; BAKE is cancelled when the target is reached.", "quantifier": "all states and inputs", "why_tests_cant": "all combinations", "anchors": ["content/OTRadioLink/utility/OTRadValve_ModelledRadValve.h:ModelledRadValve::computeTargetTemperature"]}
{"id": "C88", "title": "Frost protection end to end", "statement": "From any state, whatever the user, schedule, mode, occupancy, light and statistics do each minute, a room that stays below 4.5C has its valve open to the permitted maximum within 11 minutes (plus one per percent in glacial operation), and the valve then calls for heat.", "quantifier": "all valve states and all sequences of user, schedule and sensor inputs", "why_tests_cant": "Unbounded sequences of all inputs.", "anchors": ["content/OTRadioLink/utility/OTRadValve_ModelledRadValve.h:ModelledRadValve::read", "content/OTRadioLink/utility/OTRadValve_ModelledRadValveState.h:ModelledRadValveState::tick", "content/OTRadioLink/utility/OTRadValve_ModelledRadValve.h:CTTBasicLogic::computeTargetTemp"]}
{"id": "C89", "title": "Minimum 'really open' percentage setting is safe", "statement": "The minimum really-open percentage read is always 1..100 whatever is stored; a legal value set reads back; an illegal one restores the default; no other EEPROM cell changes.", "quantifier": "all EEPROM contents and values", "why_tests_cant": "all contents", "anchors": ["content/OTRadioLink/utility/OTRadValve_ModelledRadValve.h:ModelledRadValve::setMinValvePcReallyOpen"]}
{"id": "C90", "title": "FHT8V: a corrupted message is rejected", "statement": "Changing any one bit (or any one two-bit symbol) of a transmitted FHT8V message makes the decoder reject it; it never yields a different command.", "quantifier": "all commands, all positions, any following bytes", "why_tests_cant": "all commands x positions", "anchors": ["content/OTRadioLink/utility/OTRadValve_FHT8VRadValve.cpp:FHT8VRadValveUtil::FHT8VDecodeBitStream", "content/OTRadioLink/utility/OTRadValve_FHT8VRadValve.cpp:readOneBit"]}
{"id": "C91", "title": "FHT8V transmissions are exactly periodic", "statement": "Once in sync, whatever percentages are set meanwhile, the driver transmits at exact multiples of the FHT8V interval (115s to 118.5s, fixed by the second house code), never skipping, doubling or drifting.", "quantifier": "all states in sync, all numbers of cycles, all settings", "why_tests_cant": "unbounded runs", "anchors": ["content/OTRadioLink/utility/OTRadValve_FHT8VRadValve.cpp:FHT8VRadValveBase::FHT8VPollSyncAndTX_First", "content/OTRadioLink/utility/OTRadValve_FHT8VRadValve.cpp:FHT8VRadValveBase::FHT8VPollSyncAndTX_Next"]}
{"id": "C92", "title": "FHT8V transmissions carry the current setting", "statement": "Once in sync, each transmission decodes at the valve to this unit's house codes, the set-valve command and the last acceptable percentage set before it.", "quantifier": "all states in sync, all histories of settings", "why_tests_cant": "unbounded runs", "anchors": ["content/OTRadioLink/utility/OTRadValve_FHT8VRadValve.h:FHT8VRadValve::set", "content/OTRadioLink/utility/OTRadValve_FHT8VRadValve.h:FHT8VRadValve::FHT8VCreateValveSetCmdFrame"]}
{"id": "C93", "title": "FHT8V driver drives a valve whose house codes are valid", "statement": "With valid house codes and a radio the driver synchronises with its valve and transmits; a change of house codes forces a new synchronisation.", "quantifier": "all histories of operations", "why_tests_cant": "all histories", "anchors": ["content/OTRadioLink/utility/OTRadValve_FHT8VRadValve.h:FHT8VRadValveBase::isAvailable", "content/OTRadioLink/utility/OTRadValve_FHT8VRadValve.cpp:FHT8VRadValveBase::doSync"]}
{"id": "C94", "title": "Clock persistence wear", "statement": "However often persistRTC() is called, once the time of day has been recorded its EEPROM cell is written at most once for each quarter-hour boundary the clock passes, so the number of writes is bounded by elapsed time and not by the number of calls.", "quantifier": "all times, all sequences of ticks and calls", "why_tests_cant": "unbounded number of calls", "anchors": ["content/OTRadioLink/utility/OTV0P2BASE_RTC.cpp:persistRTC"]}
{"id": "C95", "title": "A replay never causes an action", "statement": "However messages are recorded, replayed, reordered or forged, no two messages that made a hub print, relay or call for heat are equal; a history with nothing acceptable in it leaves the boiler driver and all storage unchanged.", "quantifier": "all histories of received messages", "why_tests_cant": "unbounded adversarial histories", "anchors": ["content/OTRadioLink/utility/OTRadioLink_Messaging.h:decodeAndHandleRawRXedMessage", "content/OTRadioLink/utility/OTRadioLink_Messaging.h:boilerFrameOperation"]}
{"id": "C96", "title": "A valve's position reaches the boiler driver", "statement": "The message a valve makes for its position (with or without attached stats) is accepted by a hub that holds the same key, has the valve associated and has an older counter stored; the hub's operations act on exactly that position and text.", "quantifier": "all positions, stats, IDs, counters, keys, ciphers meeting the contract, hub states and buffers", "why_tests_cant": "end to end over all configurations", "anchors": ["content/OTRadioLink/utility/OTRadioLink_SecureableFrameType.cpp:encodeValveFrame", "content/OTRadioLink/utility/OTRadioLink_Messaging.h:decodeAndHandleOTSecureOFrame"]}
{"id": "C97", "title": "Received bytes can never cause an out-of-bounds access", "statement": "For every received byte string, the whole secure receive path (header, counter check, decryption, unpadding, operations) stays within the message and its own buffers.", "quantifier": "all received byte strings and storage states", "why_tests_cant": "all byte strings", "anchors": ["content/OTRadioLink/utility/OTRadioLink_Messaging.h:decodeAndHandleOTSecureOFrame", "content/OTRadioLink/utility/OTRadioLink_SecureableFrameType.cpp:SimpleSecureFrame32or0BodyRXBase::decode"]}
{"id": "C98", "title": "A forwarded object names its sender unambiguously", "statement": "The sender ID printed with a forwarded JSON object identifies the sender: two valid node IDs print alike only if they are equal.", "quantifier": "all IDs whose bytes are at least 0x80", "why_tests_cant": "pairs of IDs", "anchors": ["content/OTRadioLink/utility/OTRadioLink_Messaging.h:serialFrameOperation"]}
{"id": "C99", "title": "A fully open motorised valve counts as open", "statement": "In normal running a valve believed fully open is reported as really open (so that it can call for heat), and the least percentage taken as open is in 1..99.", "quantifier": "all reachable driver states", "why_tests_cant": "all histories", "anchors": ["content/OTRadioLink/utility/OTRadValve_CurrentSenseValveMotorDirect.cpp:CurrentSenseValveMotorDirect::getMinPercentOpen", "content/OTRadioLink/utility/OTRadValve_CurrentSenseValveMotorDirect.h:isControlledValveReallyOpen"]}
{"id": "C100", "title": "End stops are believed only after four reports", "statement": "The driver takes the valve as fully open (or closed) only after the hardware has reported an end stop four times in a row while opening (or closing).", "quantifier": "all histories of polls, targets and hardware answers", "why_tests_cant": "unbounded histories", "anchors": ["content/OTRadioLink/utility/OTRadValve_CurrentSenseValveMotorDirect.cpp:CurrentSenseValveMotorDirectBinaryOnly::poll", "content/OTRadioLink/utility/OTRadValve_CurrentSenseValveMotorDirect.cpp:CurrentSenseValveMotorDirect::do_valveNormal_prop"]}
{"id": "C101", "title": "Low battery never closes the valve", "statement": "While the supply is low the driver does not drive the valve closed in normal running.", "quantifier": "all histories of polls, targets and hardware answers", "why_tests_cant": "unbounded histories", "anchors": ["content/OTRadioLink/utility/OTRadValve_CurrentSenseValveMotorDirect.cpp:CurrentSenseValveMotorDirectBinaryOnly::poll", "content/OTRadioLink/utility/OTRadValve_CurrentSenseValveMotorDirect.cpp:CurrentSenseValveMotorDirect::do_valveNormal_prop"]}
{"id": "C102", "title": "The motor runs the right way and arrives", "statement": "In normal running each poll runs the motor at most once and towards the target; it leaves the motor alone only when the valve is where it should be (for the calibrated proportional driver the end zones and dead bands are given exactly, and a valve at an end stop is not moved off it by a change of target within the precision); a binary-only driver is exactly at its target after four end-stop reports.", "quantifier": "all driver states, targets and hardware answers", "why_tests_cant": "all histories", "anchors": ["content/OTRadioLink/utility/OTRadValve_CurrentSenseValveMotorDirect.cpp:CurrentSenseValveMotorDirectBinaryOnly::poll", "content/OTRadioLink/utility/OTRadValve_CurrentSenseValveMotorDirect.cpp:CurrentSenseValveMotorDirect::do_valveNormal_prop"]}
{"id": "C103", "title": "Calibration results", "statement": "A calibration is accepted exactly when it can be used for proportional running; then the tick ratio is the two travel times divided by one power of two, with at least 8 ticks and at most one dead-reckoning step each, and the precision is 1..15% and is the real quotient.", "quantifier": "all travel times and step sizes", "why_tests_cant": "all counts", "anchors": ["content/OTRadioLink/utility/OTRadValve_CurrentSenseValveMotorDirect.cpp:CurrentSenseValveMotorDirect::CalibrationParameters::updateAndCompute"]}
{"id": "C104", "title": "A change is marked as sent exactly when it is sent", "statement": "For a stats object with an ID or count, or whose entries each fit the buffer alone (otherwise see the refutation under the JSON writer property): writeJSON() clears the change mark of a stat exactly when that stat is in the object written and clearing is not suppressed; no change is lost unsent.", "quantifier": "all stats sets, buffers and flags", "why_tests_cant": "all sets and sizes", "anchors": ["content/OTRadioLink/utility/OTV0P2BASE_JSONStats.cpp:SimpleStatsRotationBase::writeJSON"]}
{"id": "C105", "title": "What is written can be sent", "statement": "For a stats object with an ID or count, or whose entries each fit alone: an object written by writeJSON() into a buffer of at most 56 bytes is accepted by adjustJSONMsgForTXAndComputeCRC().", "quantifier": "all stats sets, IDs and buffers", "why_tests_cant": "all sets", "anchors": ["content/OTRadioLink/utility/OTV0P2BASE_JSONStats.cpp:SimpleStatsRotationBase::writeJSON", "content/OTRadioLink/utility/OTV0P2BASE_JSONStats.cpp:adjustJSONMsgForTXAndComputeCRC"]}
{"id": "C106", "title": "Every stat is sent sooner or later", "statement": "If every stat fits an object by itself then, whatever values are put in between and however the objects are asked for, every stat is in at least one of any 4n objects in a row (n stats).", "quantifier": "all infinite histories of writes and puts", "why_tests_cant": "unbounded histories", "anchors": ["content/OTRadioLink/utility/OTV0P2BASE_JSONStats.cpp:SimpleStatsRotationBase::writeJSON"]}
{"id": "C107", "title": "Changed stats go first", "statement": "changedValue() is true exactly when some stat has changed, and then three objects out of four start with a changed stat.", "quantifier": "all stats sets", "why_tests_cant": "all sets", "anchors": ["content/OTRadioLink/utility/OTV0P2BASE_JSONStats.cpp:SimpleStatsRotationBase::changedValue", "content/OTRadioLink/utility/OTV0P2BASE_JSONStats.cpp:SimpleStatsRotationBase::writeJSON"]}
{"id": "C108", "title": "encode() sends exactly when it can", "statement": "encode() returns a frame (whose length is 4 header bytes + ID + 0 or 32 body bytes + 23 trailer bytes) exactly when it has a valid type, at least its documented 292 bytes of workspace, the transmitter's identity and a counter, a key, a body of at most 31 bytes, an ID of at most 8 bytes, and a frame of at most 64 bytes that fits the output buffer; never with less, and with all of these and a working cipher always. The receiver refuses every frame, changing nothing, if given less than its documented 58 bytes of workspace.", "quantifier": "all arguments, sizes and ciphers meeting the length contract", "why_tests_cant": "success and failure for every combination of sizes", "anchors": ["content/OTRadioLink/utility/content/OTRadioLink/utility/OTRadioLink_SecureableFrameType.cpp:SimpleSecureFrame32or0BodyTXBase::encode", "content/OTRadioLink/utility/content/OTRadioLink/utility/OTRadioLink_SecureableFrameType.cpp:SimpleSecureFrame32or0BodyRXBase::decode"]}
{"id": "C109", "title": "Recent use of the controls", "statement": "After a read() that reports the user did something, and none since, recentUIControlUse() stays true for at least 928 further reads (30 minutes at 2 s) and is false from 992 on; veryRecentUIControlUse() is true for at least 32 and false from 96 on. A press of the button always marks the room as certainly occupied.", "quantifier": "all histories of reads, interrupts at any point, mode changes and dial positions", "why_tests_cant": "unbounded histories with interrupts", "anchors": ["content/OTRadioLink/utility/OTRadValve_ActuatorPhysicalUI.cpp:ModeButtonAndPotActuatorPhysicalUI::read", "content/OTRadioLink/utility/OTRadValve_ActuatorPhysicalUI.h:recentUIControlUse"]}
{"id": "C110", "title": "The dial's frost position wins", "statement": "With the dial at its frost end stop a button press does not start BAKE or change the mode, and the valve is in FROST at the end of each read that looks at the dial, hence within four reads whatever else sets the mode. In a room vacant for more than 39 hours only every fourth read looks at the dial (unless the controls were just used).", "quantifier": "all histories, interrupts and dial readings", "why_tests_cant": "unbounded histories with interrupts", "anchors": ["content/OTRadioLink/utility/OTRadValve_ActuatorPhysicalUI.cpp:ModeButtonAndPotActuatorPhysicalUI::read", "content/OTRadioLink/utility/OTRadValve_ActuatorPhysicalUI.h:handleInterruptSimple"]}
{"id": "C111", "title": "The cycle button steps exactly once per read held", "statement": "Holding the button of a unit without a dial through n reads and releasing it moves the mode exactly n places round FROST, WARM, BAKE from where it was when the button went down, whatever happens meanwhile; otherwise reads leave the mode alone.", "quantifier": "all n, states, interrupts and interleaved events", "why_tests_cant": "unbounded sequences", "anchors": ["content/OTRadioLink/utility/OTRadValve_ActuatorPhysicalUI.h:CycleModeAndLearnButtonsAndPotActuatorPhysicalUI::pollMODEButton", "content/OTRadioLink/utility/OTRadValve_ActuatorPhysicalUI.cpp:ModeButtonAndPotActuatorPhysicalUI::read"]}
{"id": "C112", "title": "The LED does not stay on, and stays off when it should", "statement": "The LED is off at the end of every read (unless a press comes in its last instructions); when the controls are not in use it is never lit in a dark room, nor in FROST without a call for heat, nor (unless calling or baking) except on every fourth read.", "quantifier": "all states and inputs", "why_tests_cant": "all histories with interrupts", "anchors": ["content/OTRadioLink/utility/OTRadValve_ActuatorPhysicalUI.cpp:ModeButtonAndPotActuatorPhysicalUI::read"]}
{"id": "C113", "title": "A button press or a turn of the dial is never missed", "statement": "A press between reads, or during a read before its result is fetched, is reported by that read; one in the last instructions is reported by the next read. If the dial, found at rest by one read, is moved to another setting (another warm target, or into or out of an end zone), the next read that looks at it reports use.", "quantifier": "all states and interrupt points", "why_tests_cant": "interrupt timing", "anchors": ["content/OTRadioLink/utility/OTRadValve_ActuatorPhysicalUI.cpp:ModeButtonAndPotActuatorPhysicalUI::read", "content/OTRadioLink/utility/OTRadValve_ActuatorPhysicalUI.h:handleInterruptSimple"]}
{"id": "C114", "title": "A dial at rest goes quiet", "statement": "On a unit without a cycle button: if the dial is left alone and the button not pressed, at most 12 of all the reads that follow report use of the controls.", "quantifier": "all histories before, and any number of reads after", "why_tests_cant": "unbounded sequences", "anchors": ["content/OTRadioLink/utility/OTRadValve_ActuatorPhysicalUI.cpp:ModeButtonAndPotActuatorPhysicalUI::read"]}
{"id": "C115", "title": "Fast response to the user", "statement": "After use of the controls or on new occupancy the valve is asked for a fast response with a narrow dead band; then, in a room at least half a degree below the set point, it is fully open after one minute (unless told to move slowly or just closed).", "quantifier": "all states, temperatures and settings", "why_tests_cant": "all histories", "anchors": ["content/OTRadioLink/utility/OTRadValve_ModelledRadValve.h:ModelledRadValveComputeTargetTempBasic::setupInputState", "content/OTRadioLink/utility/OTRadValve_ModelledRadValve.cpp:computeRequiredTRVPercentOpen"]}
{"id": "C116", "title": "Lit and dark are exclusive, with hysteresis", "statement": "The room is never reported lit and dark at once; a positive dark time means dark; if the sensor's range is too narrow neither is reported and the dark time is zero. The two thresholds are always ordered, between them a reading changes nothing; once usable extremes are known the brightest usual level always reads as lit and the darkest as dark.", "quantifier": "all histories of readings and statistics updates", "why_tests_cant": "all histories", "anchors": ["content/OTRadioLink/utility/OTV0P2BASE_SensorAmbientLight.h:SensorAmbientLightAdaptiveTBase::read", "content/OTRadioLink/utility/OTV0P2BASE_SensorAmbientLight.h:SensorAmbientLightAdaptiveTBase::setTypMinMax", "content/OTRadioLink/utility/OTV0P2BASE_SensorAmbientLight.h:SensorAmbientLightAdaptiveTBase::recomputeThresholds"]}
{"id": "C117", "title": "Dark minutes are counted exactly", "statement": "While no reading is above the light threshold, getDarkMinutes() grows by one for each reading at or below the dark threshold, without rolling over 65535; a light reading makes it zero.", "quantifier": "all sequences of readings", "why_tests_cant": "unbounded sequences", "anchors": ["content/OTRadioLink/utility/OTV0P2BASE_SensorAmbientLight.h:SensorAmbientLightAdaptiveTBase::read"]}
{"id": "C118", "title": "Light-based occupancy has no false alarms at start-up or when it gets darker", "statement": "No occupancy is signalled by the first reading after power-up, nor by a reading below the one before; a strong signal needs a rise of at least the noise floor after three steady readings with no sharp drop since; a weak one needs a clearly lit room.", "quantifier": "all histories of readings, statistics updates and callback changes", "why_tests_cant": "unbounded histories", "anchors": ["content/OTRadioLink/utility/OTV0P2BASE_SensorAmbientLightOccupancy.cpp:SensorAmbientLightOccupancyDetectorSimple::update", "content/OTRadioLink/utility/OTV0P2BASE_SensorAmbientLight.h:SensorAmbientLightAdaptiveTBase::read"]}
{"id": "C119", "title": "Lights switched on are noticed, a flash in the night is not", "statement": "A big enough rise after steady light is signalled at once, unless the room was at its darkest and steady for 255 readings: then exactly at the third further steady reading, and not at all if the light goes off sharply before; a strong signal is only given if the light is still on.", "quantifier": "all histories and levels", "why_tests_cant": "unbounded histories", "anchors": ["content/OTRadioLink/utility/OTV0P2BASE_SensorAmbientLightOccupancy.cpp:SensorAmbientLightOccupancyDetectorSimple::update"]}
{"id": "C120", "title": "The command line is what was typed", "statement": "Whatever comes in over serial, the command line fits the buffer with its terminator and is printable starting with a capital letter, '+' or '?'; a line ended in time is exactly the printable characters from the command letter on (cut to the buffer); a line not ended in time is dropped whole; the CLI goes inactive two minutes after the last activity.", "quantifier": "all input streams, timings and buffer sizes", "why_tests_cant": "all streams", "anchors": ["content/OTRadioLink/utility/OTV0P2BASE_CLI.cpp:promptAndReadCommandLine", "content/OTRadioLink/utility/OTV0P2BASE_CLI.cpp:countDownCLI"]}
{"id": "C121", "title": "Only a complete valid ID is associated or set", "statement": "Typing eight valid ID bytes in hex adds exactly that association (or sets exactly that node ID); a query changes nothing; '*' empties the table; any other line changes nothing, and no line changes anything outside the table (or ID) area.", "quantifier": "all command lines, EEPROM contents and stack contents", "why_tests_cant": "all strings", "anchors": ["content/OTRadioLink/utility/OTV0P2BASE_CLI.cpp:SetNodeAssoc::doCommand", "content/OTRadioLink/utility/OTV0P2BASE_CLI.cpp:NodeIDWithSet::doCommand"]}
{"id": "C122", "title": "Only a complete valid key is stored", "statement": "Typing sixteen bytes in hex stores exactly that key; '*' clears it and reports so; any other line changes nothing; nothing outside the key area changes.", "quantifier": "all command lines and EEPROM contents", "why_tests_cant": "all strings", "anchors": ["content/OTRadioLink/utility/OTV0P2BASE_CLI.cpp:SetSecretKey::doCommand"]}
{"id": "C123", "title": "Only a time of day sets the clock", "statement": "'T hh mm' sets exactly that time if it is a time of day; any other line changes nothing; the clock always stays legal.", "quantifier": "all command lines and clock states", "why_tests_cant": "all strings", "anchors": ["content/OTRadioLink/utility/OTV0P2BASE_CLI.cpp:SetTime::doCommand"]}
{"id": "C124", "title": "Only inspectable parameters can be changed", "statement": "'G n v' sets exactly parameter n to v; no line changes anything outside the 32 inspectable cells.", "quantifier": "all command lines and EEPROM contents", "why_tests_cant": "all strings", "anchors": ["content/OTRadioLink/utility/OTV0P2BASE_CLI.cpp:GenericParam::doCommand"]}
{"id": "C125", "title": "SIM900: queued frames go out at most once and in order", "statement": "The frames written to the modem by poll() are some of the frames accepted by queueToSend(), in the order accepted, each at most once for each time it was accepted, with exactly the bytes given; a frame that has been superseded is never sent. queueToSend() accepts exactly the frames of at most 64 bytes, and a refused frame leaves the waiting one alone. (Not every accepted frame is sent: see the refutations.)", "quantifier": "all histories of begin, queueToSend, sendRaw, poll and end with any modem replies and times", "why_tests_cant": "unbounded histories with arbitrary modem replies", "anchors": ["content/OTRadioLink/utility/OTSIM900Link_OTSIM900Link.h:OTSIM900Link::queueToSend", "content/OTRadioLink/utility/OTSIM900Link_OTSIM900Link.h:OTSIM900Link::poll"]}
{"id": "C126", "title": "SIM900: the announced length is the length sent", "statement": "When poll() writes a frame the number of bytes is the one announced to the modem in AT+CIPSEND, unless queueToSend() came in between (then it need not be: refuted).", "quantifier": "all histories", "why_tests_cant": "unbounded histories", "anchors": ["content/OTRadioLink/utility/OTSIM900Link_OTSIM900Link.h:OTSIM900Link::poll", "content/OTRadioLink/utility/OTSIM900Link_OTSIM900Link.h:OTSIM900Link::initUDPSend", "content/OTRadioLink/utility/OTSIM900Link_OTSIM900Link.h:OTSIM900Link::writePacket"]}
{"id": "C127", "title": "SIM900: sends only over an open connection", "statement": "poll() announces a frame only if the modem's latest status answer was that the UDP connection is open, if the modem's replies do not overflow the reply buffer.", "quantifier": "all histories and modem replies", "why_tests_cant": "unbounded histories", "anchors": ["content/OTRadioLink/utility/OTSIM900Link_OTSIM900Link.h:OTSIM900Link::poll", "content/OTRadioLink/utility/OTSIM900Link_OTSIM900Link.h:OTSIM900Link::checkUDPStatus"]}
{"id": "C128", "title": "SIM900: power key timing", "statement": "The power key of the modem is held for at least 3 s whenever it is pressed, and at least 13 s pass from the start of a press before anything else is said to the modem or the key is pressed again.", "quantifier": "all histories with non-decreasing times, however irregular the polls", "why_tests_cant": "unbounded histories and arbitrary poll times", "anchors": ["content/OTRadioLink/utility/OTSIM900Link_OTSIM900Link.h:OTSIM900Link::poll", "content/OTRadioLink/utility/OTSIM900Link_OTSIM900Link.h:OTSIM900Link::waitedLongEnough"]}
{"id": "C129", "title": "SIM900: a question is not asked for ever", "statement": "Between two restarts of the modem poll() asks for the PIN state at most 10 times, for network registration at most 30 times, and tries to set the APN, start GPRS and open the connection at most 10 times each: then the modem is restarted.", "quantifier": "all histories and modem replies", "why_tests_cant": "unbounded histories", "anchors": ["content/OTRadioLink/utility/OTSIM900Link_OTSIM900Link.h:OTSIM900Link::poll", "content/OTRadioLink/utility/OTSIM900Link_OTSIM900Link.h:OTSIM900Link::checkStuck"]}
{"id": "C130", "title": "SIM900: recovers and delivers", "statement": "From any reachable state in which a frame is accepted (except just before the first poll or in the middle of another send), if from then on the modem answers truthfully, is powered by the key, and polls come every 1 to 47 seconds, the frame is delivered within 981 polls, whatever state the modem was in.", "quantifier": "all histories before, all modem states, all allowed schedules of polls and replies after", "why_tests_cant": "liveness over infinite schedules", "anchors": ["content/OTRadioLink/utility/OTSIM900Link_OTSIM900Link.h:OTSIM900Link::poll"]}
{"id": "C131", "title": "SIM900: replies mean what they say", "statement": "The result of reading a modem reply does not depend on memory outside the reply buffer; the PIN is taken as ready exactly if 'R' follows the first space, and the modem as registered exactly if the third character after it is '1' or '5'; an unanswered command counts as failed.", "quantifier": "all replies", "why_tests_cant": "all byte strings", "anchors": ["content/OTRadioLink/utility/OTSIM900Link_OTSIM900Link.h:OTSIM900Link::isPINRequired", "content/OTRadioLink/utility/OTSIM900Link_OTSIM900Link.h:OTSIM900Link::isRegistered", "content/OTRadioLink/utility/OTSIM900Link_OTSIM900Link.h:OTSIM900Link::setAPN", "content/OTRadioLink/utility/OTSIM900Link_OTSIM900Link.h:OTSIM900Link::getResponse"]}
{"id": "C132", "title": "SIM900: direct send returns and reports truthfully", "statement": "sendRaw() returns within two seconds even if the modem is silent; the bytes are written only after the modem's prompt, and it returns true exactly if they were.", "quantifier": "all start times, clock readings and modem bytes", "why_tests_cant": "all schedules", "anchors": ["content/OTRadioLink/utility/OTSIM900Link_OTSIM900Link.h:OTSIM900Link::sendRaw", "content/OTRadioLink/utility/OTSIM900Link_OTSIM900Link.h:OTSIM900Link::flushUntil"]}
{"id": "C133", "title": "The privacy command sets the privacy level only", "statement": "'X n' sets exactly the stored stats-transmission privacy level to n (0..255) and changes nothing else in the EEPROM.", "quantifier": "all command lines and EEPROM contents", "why_tests_cant": "all strings", "anchors": ["content/OTRadioLink/utility/OTV0P2BASE_CLI.cpp:SetTXPrivacy::doCommand"]}
{"id": "C134", "title": "RFM23B: the radio does what listen() said", "statement": "After begin(), however calls, interrupts and radio events are interleaved, the radio is receiving with the configuration of the channel last given to listen() (or holds a received packet with its interrupt raised), or is in standby with no interrupt if the last listen() switched listening off; the SPI bus is powered down between calls and never used while down. (False across end() and a second begin(): refuted.)", "quantifier": "all chip states, sane configurations and histories without a second begin() or end()", "why_tests_cant": "unbounded histories", "anchors": ["content/OTRadioLink/utility/OTRFM23BLink_OTRFM23BLink.cpp:OTRFM23BLinkBase::begin", "content/OTRadioLink/utility/OTRFM23BLink_OTRFM23BLink.h:OTRFM23BLink::_dolisten", "content/OTRadioLink/utility/OTRFM23BLink_OTRFM23BLink.cpp:OTRFM23BLinkBase::_setChannel", "content/OTRadioLink/utility/OTRadioLink_OTRadioLink.h:OTRadioLink::listen"]}
{"id": "C135", "title": "RFM23B: a frame sent goes out whole, on its channel, and is reported truthfully", "statement": "sendRaw() of at most 64 bytes for an existing channel puts exactly that frame on the air, once (twice at the highest power, unless the first transmission has timed out and is still going on when the second is started), with that channel's configuration and the frame's own length; it returns true exactly if every transmission was reported complete in time; listening then resumes on the listening channel, and nothing received and queued is disturbed.", "quantifier": "all states after any history, frames, channels, powers and transmission delays", "why_tests_cant": "unbounded histories and arbitrary hardware timing", "anchors": ["content/OTRadioLink/utility/OTRFM23BLink_OTRFM23BLink.cpp:OTRFM23BLinkBase::sendRaw", "content/OTRadioLink/utility/OTRFM23BLink_OTRFM23BLink.cpp:OTRFM23BLinkBase::_TXFIFO", "content/OTRadioLink/utility/OTRFM23BLink_OTRFM23BLink.cpp:OTRFM23BLinkBase::_queueFrameInTXFIFO"]}
{"id": "C136", "title": "RFM23B: every frame polled is queued, filtered or counted", "statement": "When a frame has been received the next poll or interrupt adds exactly its bytes at the end of the queue, or counts it as filtered or as dropped (with an error noted), and the radio receives again; nothing else changes the queue or the counts, and the queue never leaves its buffer. (A frame received but not yet polled is lost by a send: refuted.)", "quantifier": "all histories, frames, filters that only shorten, and queue sizes", "why_tests_cant": "unbounded histories", "anchors": ["content/OTRadioLink/utility/OTRFM23BLink_OTRFM23BLink.h:OTRFM23BLink::_poll", "content/OTRadioLink/utility/OTRFM23BLink_OTRFM23BLink.h:OTRFM23BLink::_RXFIFO", "content/OTRadioLink/utility/OTRadioLink_ISRRXQueue.h:ISRRXQueueVarLenMsg"]}
{"id": "C137", "title": "Radio frame helpers", "statement": "The length of an 0xff-terminated frame is the position of the terminator, 0 if none within 256, and nothing past it is read; the trailing-zeros filter cuts only zeros, leaving one; frames printed for logging can be told apart.", "quantifier": "all buffers and lengths", "why_tests_cant": "all byte strings", "anchors": ["content/OTRadioLink/utility/OTRadioLink_OTRadioLink.cpp:frameLenFFTerminated", "content/OTRadioLink/utility/OTRadioLink_OTRadioLink.cpp:frameFilterTrailingZeros", "content/OTRadioLink/utility/OTRadioLink_OTRadioLink.cpp:printRXMsg"]}
{"id": "C138", "title": "1-Wire search finds every device exactly once", "statement": "On a working bus with any set of devices (codes of 8 bytes, distinct, family code not 0), after reset_search() the calls of search() return each device's code exactly once, in code order, then false, and then start over, whatever else is done on the bus between the calls; with no device or a shorted line it returns false. (A device with family code 0 ends the enumeration early: refuted.)", "quantifier": "all sets of devices, all states of the search before, all bus traffic between calls", "why_tests_cant": "any number of devices with any codes", "anchors": ["content/OTRadioLink/utility/OTV0P2BASE_MinOW.cpp:MinimalOneWireBase::search", "content/OTRadioLink/utility/OTV0P2BASE_MinOW.cpp:MinimalOneWireBase::reset_search"]}
{"id": "C139", "title": "1-Wire addressing and bytes", "statement": "After reset() and select(code) exactly the device with that code listens, after skip() all do; a byte written is the byte the listening device takes, and the bytes read are those the device sends.", "quantifier": "all buses, codes and bytes", "why_tests_cant": "all devices and byte values", "anchors": ["content/OTRadioLink/utility/OTV0P2BASE_MinOW.cpp:MinimalOneWireBase::select", "content/OTRadioLink/utility/OTV0P2BASE_MinOW.cpp:MinimalOneWireBase::skip", "content/OTRadioLink/utility/OTV0P2BASE_MinOW.cpp:MinimalOneWireBase::write", "content/OTRadioLink/utility/OTV0P2BASE_MinOW.cpp:MinimalOneWireBase::read"]}
{"id": "C140", "title": "DS18B20 readMultiple returns the sensors' values in order", "statement": "readMultiple(values, count, index) ends and stores, for the DS18B20s on the bus in code order without the first index, at most count values, each the signed 16-bit reading in that sensor's scratchpad; other devices are passed over; read() gives the first. (A count of 0 still stores one value; the wait for the conversion ends at once, so the values are those from before: refuted.)", "quantifier": "all buses, counts and indexes", "why_tests_cant": "any number of devices and readings", "anchors": ["content/OTRadioLink/utility/OTV0P2BASE_SensorDS18B20.cpp:TemperatureC16_DS18B20::readMultiple", "content/OTRadioLink/utility/OTV0P2BASE_SensorDS18B20.cpp:TemperatureC16_DS18B20::read"]}
{"id": "C141", "title": "DS18B20 initialisation touches only DS18B20s", "statement": "Initialisation gives every DS18B20 on the bus the precision asked for, writes to no other device, and counts them (modulo 256).", "quantifier": "all buses and precisions", "why_tests_cant": "any number of devices", "anchors": ["content/OTRadioLink/utility/OTV0P2BASE_SensorDS18B20.cpp:TemperatureC16_DS18B20::init"]}
{"id": "C142", "title": "The small generator does not latch up", "statement": "No two states of the 8-bit generator have the same successor, 256 states in a row are always distinct, every state recurs after a multiple of 256 calls, over all states each output is equally frequent, and seeding loses nothing of the seed nor of the state.", "quantifier": "all states and seeds, any number of calls", "why_tests_cant": "2^32 states and unbounded runs", "anchors": ["content/OTRadioLink/utility/OTV0P2BASE_QuickPRNG.cpp:randRNG8", "content/OTRadioLink/utility/OTV0P2BASE_QuickPRNG.cpp:seedRNG8"]}
{"id": "C143", "title": "The secure random byte keeps the entropy of its sources", "statement": "With everything else fixed, different values of an entropy source give different bytes: true of the ADC and the watchdog for the raw byte, of the watchdog and the generator for the whitened one. (The clock jitter byte, meant to carry 8 bits, loses 2 bits in the raw byte and 1 in the whitened one, and the ADC 1 in the whitened one: refuted.)", "quantifier": "all values of all sources", "why_tests_cant": "all combinations of source bytes", "anchors": ["content/OTRadioLink/utility/OTV0P2BASE_Entropy.cpp:getSecureRandomByte"]}
{"id": "C144", "title": "Seed bytes wear out slowly", "statement": "Each boot changes at most the one seed byte of the EEPROM it picks, and over any history of boots a byte is erased at most half as often as it is picked (rounded up).", "quantifier": "all histories of boots, picks and noise", "why_tests_cant": "unbounded histories", "anchors": ["content/OTRadioLink/utility/OTV0P2BASE_Entropy.cpp:seedPRNGs"]}
{"id": "C145", "title": "Weak increment and decrement never wrap or lose count", "statement": "However the calls of any number of threads or interrupt routines are interleaved, the shared byte moves by the calls that took effect and never wraps past 0 or 255; a call that finds the byte unchanged at its exchange does what it should; a call that fails was beaten by another that took effect. On AVR the exchange is atomic against interrupts at any instruction and restores the interrupt flag.", "quantifier": "all interleavings of any number of threads and calls", "why_tests_cant": "unbounded schedules", "anchors": ["content/OTRadioLink/utility/OTV0P2BASE_Concurrency.h:safeIncIfNotMaxWeak", "content/OTRadioLink/utility/OTV0P2BASE_Concurrency.h:safeDecIfNZWeak", "content/OTRadioLink/utility/OTV0P2BASE_Concurrency.h:OTAtomic_t::compare_exchange_strong", "content/OTRadioLink/utility/OTV0P2BASE_Concurrency.h:RAII_AtomicBlock"]}
{"id": "C146", "title": "SHT21 temperature reading", "statement": "A read returns, and get() keeps, a temperature within 0.1 C of the data sheet's formula, monotone in the raw reading and never the error value; a read whose data do not arrive returns the error value and leaves get() alone; bus power is as before. (A failed read leaves the bus powered, and the AVR build never sets the resolution it relies on: refuted.)", "quantifier": "all raw readings and states", "why_tests_cant": "all 16-bit readings, all states", "anchors": ["content/OTRadioLink/utility/OTV0P2BASE_SensorSHT21.cpp:RoomTemperatureC16_SHT21::read", "content/OTRadioLink/utility/OTV0P2BASE_SensorSHT21.cpp:SHT21_init"]}
{"id": "C147", "title": "SHT21 humidity reading and hysteresis", "statement": "A read returns and keeps the data sheet's relative humidity rounded down; the high-humidity flag is, over any history, whether the last result outside 65..75% was above it, and true before there is one. (Raw readings below 0% come out as 250..255 and are taken for very damp, the highest come out above 100: refuted.)", "quantifier": "all histories of reads and raw readings", "why_tests_cant": "unbounded histories", "anchors": ["content/OTRadioLink/utility/OTV0P2BASE_SensorSHT21.cpp:HumiditySensorSHT21::read", "content/OTRadioLink/utility/OTV0P2BASE_SensorSHT21.h:HumiditySensorBase"]}
{"id": "C148", "title": "TMP112 reading", "statement": "A read on a working bus returns, and get() keeps, the signed 12-bit register in sixteenths of a degree and leaves bus power as before; a bus error at any step gives the error value and leaves get() alone. (A conversion that never ends is not noticed, and a failed read leaves the bus powered: refuted.)", "quantifier": "all bus behaviours and register contents", "why_tests_cant": "all bus behaviours", "anchors": ["content/OTRadioLink/utility/OTV0P2BASE_SensorTMP112.cpp:RoomTemperatureC16_TMP112::read"]}
{"id": "C149", "title": "Supply voltage is never overstated and does not dither", "statement": "Over any history of plausible ADC readings the reported voltage is at most the true one for the latest reading and less than 3 cV below that of a reading 6 counts worse; the low and very low flags say whether it is at most 2.45 V and 2.1 V; mains entails not low; while readings stay within 6 counts the value never goes up again.", "quantifier": "all histories of readings", "why_tests_cant": "unbounded histories", "anchors": ["content/OTRadioLink/utility/OTV0P2BASE_PowerManagement.cpp:SupplyVoltageCentiVolts::read", "content/OTRadioLink/utility/OTV0P2BASE_PowerManagement.h:SupplyVoltageCentiVolts"]}
{"id": "C150", "title": "Peripheral power is restored whatever the nesting", "statement": "Code made of nested power-up/power-down blocks for the SPI, TWI, serial and ADC leaves every peripheral as it found it, and inside a block its peripheral is powered.", "quantifier": "all nestings of blocks and all initial power states", "why_tests_cant": "unbounded nesting", "anchors": ["content/OTRadioLink/utility/OTV0P2BASE_PowerManagement.h:RAII_SPIPowerUpSPIIfDisabled", "content/OTRadioLink/utility/OTV0P2BASE_PowerManagement.h:RAII_EnableSerial", "content/OTRadioLink/utility/OTV0P2BASE_PowerManagement.cpp:powerUpTWIIfDisabled"]}
{"id": "C151", "title": "Multi-sample ADC read", "statement": "It makes at most the conversions asked for and returns the last; it stops early only when two in a row agree or the cycle is over, and always when two agree; ADC power is as before. (Started too late it returns 1024, which callers take for a reading: refuted.)", "quantifier": "all sequences of conversions, times and sample numbers", "why_tests_cant": "all sequences", "anchors": ["content/OTRadioLink/utility/OTV0P2BASE_ADC.cpp:_analogueNoiseReducedReadM"]}
{"id": "C152", "title": "Voice detector counts", "statement": "With a callback set, over any history of detections and reads, get() is the count at the last read, the voice flag is set exactly if the count now or at the last read is at least 4, and the callback has run once for each detection from the fourth on. (Without a callback, which the interface allows, the fourth detection calls a null pointer: refuted.)", "quantifier": "all histories of detections and reads", "why_tests_cant": "unbounded histories", "anchors": ["content/OTRadioLink/utility/OTV0P2BASE_SensorQM1.cpp:VoiceDetectionQM1::handleInterruptSimple", "content/OTRadioLink/utility/OTV0P2BASE_SensorQM1.cpp:VoiceDetectionQM1::read"]}
{"id": "C153", "title": "The direct motor driver never shorts its bridge", "statement": "Over any sequence of motorRun() calls the two bridge lines are never low together; the motor ends up driven as the last call asked; it is powered in a direction only while a run in that direction is being watched; before power is reversed the motor rests unpowered for at least 120 ms; no call ever powers the motor against the direction it was asked for.", "quantifier": "all sequences of calls, run times and initial pin states with the motor off", "why_tests_cant": "unbounded call sequences; a short destroys the board", "anchors": ["content/OTRadioLink/utility/OTRadValve_ValveMotorDirectV1.h:ValveMotorDirectV1HardwareDriver::motorRun"]}
{"id": "C154", "title": "A watched motor run ends in time and counts honestly", "statement": "If too little of the cycle is left for the minimum run, nothing is run or signalled. Otherwise the run lasts at least the minimum, ends in the same cycle soon after its limit, signals at most the ticks that passed (all of them if none is missed, none for a stopped motor), and reports an end stop exactly if it saw high current after the minimum time, at the first such time.", "quantifier": "all clocks looked at at least every 13 ticks, all current readings, all limits", "why_tests_cant": "all schedules of clock and current", "anchors": ["content/OTRadioLink/utility/OTRadValve_ValveMotorBase.cpp:ValveMotorDirectV1HardwareDriverBase::spinSCTTicks"]}
{"id": "C155", "title": "The DRV8850 motor driver", "statement": "Over any sequence of calls it never selects the shoot-through combination, ends up as last asked, and rests 120 ms before reversing. The motor is powered only while being watched. (False: off clears one line twice and the other never, so opening, off, opening powers the motor during the 120 ms rest, uncounted.)", "quantifier": "all sequences of calls", "why_tests_cant": "unbounded call sequences", "anchors": ["content/OTRadioLink/utility/OTRadValve_ValveMotorDRV8850.h:DRV8850HardwareDriver::motorRun"]}
{"id": "C156", "title": "The interrupt-driven software UART receives what is sent", "statement": "A 7-bit character is received as sent whenever the receiver's bit time and first sample are close enough to the sender's: with the first sample off by at most x and each bit by at most e, x + 6e up to the sample spacing (a quarter bit). Values are always 7-bit.", "quantifier": "all characters, sender bit times, latencies and instruction overheads in the stated range", "why_tests_cant": "all timings and characters", "anchors": ["content/OTRadioLink/utility/OTV0P2BASE_SoftSerialAsync.h:OTSoftSerialAsync::handle_interrupt"]}
{"id": "C157", "title": "The software UART's receive buffer is a queue", "statement": "Over any history, read(), peek() and available() show exactly a first-in first-out queue of the first 32 characters since the last write(), which empties it. (Characters after the 32nd are lost until a write, even if all were read.)", "quantifier": "all histories of arrivals, reads and writes", "why_tests_cant": "unbounded histories", "anchors": ["content/OTRadioLink/utility/OTV0P2BASE_SoftSerialAsync.h:OTSoftSerialAsync::read", "content/OTRadioLink/utility/OTV0P2BASE_SoftSerialAsync.h:OTSoftSerialAsync::peek", "content/OTRadioLink/utility/OTV0P2BASE_SoftSerialAsync.h:OTSoftSerialAsync::available", "content/OTRadioLink/utility/OTV0P2BASE_SoftSerialAsync.h:OTSoftSerialAsync::write"]}
{"id": "C158", "title": "Software UART framing and blocking read", "statement": "Every byte is sent as start bit, eight data bits from the lowest, stop bit; a byte so sent is read exactly by a reader whose first and last samples fall in the right bits; read() returns -1 exactly if no start bit is seen or the line does not return to idle in 60000 polls each.", "quantifier": "all bytes, bit times, latencies and poll results", "why_tests_cant": "all timings and bytes", "anchors": ["content/OTRadioLink/utility/OTV0P2BASE_SoftSerial2.h:OTSoftSerial2::read", "content/OTRadioLink/utility/OTV0P2BASE_SoftSerial2.h:OTSoftSerial2::write", "content/OTRadioLink/utility/OTV0P2BASE_SoftSerial.cpp:OTSoftSerial::print"]}
{"id": "C159", "title": "OTSoftSerial delays and buffer read", "statement": "begin(baud) sets the delays for that rate; read(buf, len) stores at most len bytes, those received in order, and returns their number, ending early only when the line is quiet or stuck. (The delays are right exactly for 977..5681 baud: outside, byte arithmetic wraps; refuted.)", "quantifier": "all rates, all sequences received", "why_tests_cant": "all rates and sequences", "anchors": ["content/OTRadioLink/utility/OTV0P2BASE_SoftSerial.cpp:OTSoftSerial::begin", "content/OTRadioLink/utility/OTV0P2BASE_SoftSerial.cpp:OTSoftSerial::read"]}
{"id": "C160", "title": "Sleeping until a time in the cycle", "statement": "sleepUntilSubCycleTime(t), asked before or in tick t of the 2 s cycle, returns true in tick t of the same cycle, provided no nap takes more than half as long again as its nominal time; asked after it, returns false at once. msRemainingThisBasicCycle() never overstates.", "quantifier": "all targets, all starting times, all real lengths of the naps within tolerance", "why_tests_cant": "every nap length varies with the watchdog oscillator", "anchors": ["content/OTRadioLink/utility/OTV0P2BASE_Sleep.cpp:sleepUntilSubCycleTime", "content/OTRadioLink/utility/OTV0P2BASE_Sleep.h:msRemainingThisBasicCycle"]}
{"id": "C161", "title": "Naps and waiting for the next cycle wake up when they should", "statement": "nap() ends when the watchdog fires (or, if allowed, at any interrupt) and reports whether it did; sleepUntilNewCycle(old) returns the current seconds as soon as they differ from old. (Both test and then sleep without blocking interrupts, so a wake-up in between is lost; refuted, with what always holds proved.)", "quantifier": "all sequences of interrupts and their arrival, awake or asleep", "why_tests_cant": "interrupt timing", "anchors": ["content/OTRadioLink/utility/OTV0P2BASE_Sleep.cpp:nap", "content/OTRadioLink/utility/OTV0P2BASE_Sleep.cpp:_idleCPU", "content/OTRadioLink/utility/OTV0P2BASE_Sleep.h:sleepUntilNewCycle"]}
{"id": "C162", "title": "Busy delays take the time asked for", "statement": "OTV0P2BASE_busy_spin_delay(us) and delay_ms(ms) take us microseconds and ms milliseconds. (Exact at 1 MHz, and at 16 MHz except for multiples of 64 us, 64 us too long; on ARM both are far off; refuted.)", "quantifier": "all delays in range", "why_tests_cant": "all arguments", "anchors": ["content/OTRadioLink/utility/OTV0P2BASE_Sleep.h:_delay_x4cycles", "content/OTRadioLink/utility/OTV0P2BASE_Sleep.h:OTV0P2BASE_busy_spin_delay", "content/OTRadioLink/utility/OTV0P2BASE_Sleep.h:delay_ms"]}
{"id": "C163", "title": "Crystal test", "statement": "check32768HzOsc() returns true exactly if one of 254 looks at the counter shows neither its first value nor the next; so a crystal that is stopped or ticks once is always reported, a running one found within three looks; it always ends.", "quantifier": "all counter behaviours over the looks", "why_tests_cant": "all clock behaviours", "anchors": ["content/OTRadioLink/utility/OTV0P2BASE_HardwareTests.cpp:check32768HzOsc"]}
{"id": "C164", "title": "Crystal to CPU clock ratio test", "statement": "check32768HzOscExtended() returns true exactly if the crystal runs and one of 32 measurements is 119 to 125 steps of 64 cycles; a CPU at 0.975..1.024 MHz always passes, one that passes is at 0.967..1.032 MHz. (The last part holds only up to the byte count's wrap: 3.1 MHz also passes; refuted.)", "quantifier": "all clock ratios, phases and sequences of measurements", "why_tests_cant": "all frequencies and phases", "anchors": ["content/OTRadioLink/utility/OTV0P2BASE_HardwareTests.cpp:check32768HzOscExtended"]}
{"id": "C165", "title": "CPU clock calibration", "statement": "calibrateInternalOscWithExtOsc() makes at most 128 tries and, when it returns true, leaves the CPU clock within 0.65% of 1 MHz; OSCCAL stays in the upper range if it starts there; from any start strictly inside it, an inside value on target is found if the count rises with OSCCAL. (Not if the byte count wraps, above 1.27 MHz; shown.)", "quantifier": "all oscillator characteristics, starts and measurement sequences", "why_tests_cant": "all oscillators", "anchors": ["content/OTRadioLink/utility/OTV0P2BASE_HardwareTests.cpp:calibrateInternalOscWithExtOsc"]}
{"id": "C166", "title": "One call of the message queue handler", "statement": "handle() passes at most one message, the oldest, to the handlers, intact even if frames arrive while it is being read, and removes it; returns true exactly if it handled one or pollIO did something; late in the cycle (sub-cycle time 189 up) does nothing and returns false; leaves serial power as it found it.", "quantifier": "all queue contents, interrupts at any point of the call, all inputs", "why_tests_cant": "interrupt timing", "anchors": ["content/OTRadioLink/utility/OTRadioLink_Messaging.h:OTMessageQueueHandler::handle", "content/OTRadioLink/utility/OTRadioLink_ISRRXQueue.h:ISRRXQueueVarLenMsg"]}
{"id": "C167", "title": "Every received frame is handled exactly once, in order", "statement": "Over any history of frame arrivals and handle() calls no memory outside the queue is touched, and the messages handled followed by those still queued are exactly the frames taken in, in order; a hub's storage, boiler and actions are those of handling that list one by one; early calls drain the queue.", "quantifier": "all histories of arrivals and calls, interrupts anywhere", "why_tests_cant": "unbounded histories and interleavings", "anchors": ["content/OTRadioLink/utility/OTRadioLink_Messaging.h:OTMessageQueueHandler::handle", "content/OTRadioLink/utility/OTRadioLink_Messaging.h:decodeAndHandleRawRXedMessage"]}
{"id": "C168", "title": "The LoRa link transmits the message it is given", "statement": "sendRaw on the RN2483 link writes one command line that a modem reads as 'transmit exactly these bytes', made only of printable characters and one CR LF, and begin() writes well-formed configuration lines ending in a join.", "quantifier": "all messages of 0..255 bytes", "why_tests_cant": "all messages", "anchors": ["content/OTRadioLink/utility/OTRN2483Link_OTRN2483Link.cpp:OTRN2483Link::sendRaw", "content/OTRadioLink/utility/OTRN2483Link_OTRN2483Link.cpp:OTRN2483Link::getHex", "content/OTRadioLink/utility/OTRN2483Link_OTRN2483Link.cpp:OTRN2483Link::begin"]}
{"id": "C169", "title": "The status line says what the sensors say", "statement": "The serial status report is one printable line from which a reader recovers the mode, valve position and temperature in sixteenths; with the JSON tail enabled the tail is a well-formed object carrying the ID and only current sensor values under their own tags, each at most once.", "quantifier": "all sensor values, modes and report histories", "why_tests_cant": "unbounded histories of reports", "anchors": ["content/OTRadioLink/utility/OTV0P2BASE_SystemStatsLine.h:SystemStatsLine::serialStatusReport"]}
{"id": "C170", "title": "Sensors of the status line are optional", "statement": "Any sensor pointer of the status report may be left NULL and the report still works, omitting it.", "quantifier": "all combinations of present and missing sensors", "why_tests_cant": "all combinations", "anchors": ["content/OTRadioLink/utility/OTV0P2BASE_SystemStatsLine.h:SystemStatsLine"]}
{"id": "C171", "title": "The D command prints the stored statistics", "statement": "'D n' prints one line: the name of set n, whether it is smoothed, then 24 entries in order, the current hour marked, '-' for unset, the stored value for others and for temperatures the value rounded to a degree; without a number it prints nothing.", "quantifier": "all storage contents, command lines and hours", "why_tests_cant": "all storage contents and text", "anchors": ["content/OTRadioLink/utility/OTV0P2BASE_CLI.cpp:DumpStats::doCommand", "content/OTRadioLink/utility/OTV0P2BASE_CLI.cpp:dumpCLIStats"]}
{"id": "C172", "title": "House codes set by the H command are used and survive reset", "statement": "'H a b' with decimal numbers below 100 makes the pair the one in use and the one stored, touching no other storage, and a reboot loads it; 'H' clears both; a change of code restarts synchronisation and re-setting the same code does not; reading through the cache always gives what is stored.", "quantifier": "all buffers, driver states, storage contents and histories of calls", "why_tests_cant": "unbounded histories", "anchors": ["content/OTRadioLink/utility/OTRadValve_FHT8VRadValve.cpp:FHT8VRadValveUtil::SetHouseCode", "content/OTRadioLink/utility/OTRadValve_FHT8VRadValve.h:FHT8VRadValveBase::nvSetHC1", "content/OTRadioLink/utility/OTRadValve_FHT8VRadValve.h:FHT8VRadValveBase::nvGetHC1", "content/OTRadioLink/utility/OTRadValve_FHT8VRadValve.h:FHT8VRadValveBase::nvLoadHC"]}
{"id": "C173", "title": "Bad or interrupted H commands leave the house code intact", "statement": "An H command with words that are not numbers in 0..99 changes nothing, and a power failure during an H command leaves either the old pair or the new.", "quantifier": "all buffers and all crash points", "why_tests_cant": "every crash point", "anchors": ["content/OTRadioLink/utility/OTRadValve_FHT8VRadValve.cpp:FHT8VRadValveUtil::SetHouseCode", "content/OTRadioLink/utility/OTRadValve_FHT8VRadValve.h:FHT8VRadValveBase::nvSetHC1"]}
{"id": "C174", "title": "Core stats from sensors to receiver", "statement": "The full stats message built from the sensors of a leaf decodes at the receiver to the configured house code (or own ID), temperature, power flag, clamped light level and occupancy, and none is built while the house code is unset.", "quantifier": "all sensor values, stored codes and buffers", "why_tests_cant": "all values", "anchors": ["content/OTRadioLink/utility/OTV0P2BASE_SystemStatsLine.h:populateCoreStats", "content/OTRadioLink/utility/OTRadioLink_JeelabsOemPacket.h", "content/OTRadioLink/utility/OTRadioLink_FrameType.h"]}
{"id": "C175", "title": "The secure channel delivers a subsequence of what was sent", "statement": "With any number of transmitters sharing a key, restarting and losing power, a receiver that may restart or lose power in the middle of a counter update, and a network that may deliver any bytes in any order any number of times, what the receiver accepts from a node is a subsequence of what that node sent (types, bodies and frame bytes), and nothing is accepted in anybody else's name.", "quantifier": "all interleavings of sends, restarts, power failures at either end and deliveries of arbitrary bytes; all ciphers that cannot be forged and give back what was encrypted", "why_tests_cant": "unbounded adversarial histories", "anchors": ["content/OTRadioLink/utility/OTRadioLink_SecureableFrameType.cpp", "content/OTRadioLink/utility/OTRadioLink_SecureableFrameType_V0p2Impl.cpp", "content/OTRadioLink/utility/OTRadioLink_SecureableFrameType.h"]}
{"id": "C176", "title": "No IV is ever used twice with the shared key", "statement": "No two frames sent by any of the transmitters, across any restarts and (spaced) power failures, use the same IV.", "quantifier": "all histories of all transmitters", "why_tests_cant": "unbounded histories with crash points", "anchors": ["content/OTRadioLink/utility/OTRadioLink_SecureableFrameType_V0p2Impl.cpp:SimpleSecureFrame32or0BodyTXV0p2::incrementAndGetPrimarySecure6BytePersistentTXMessageCounter", "content/OTRadioLink/utility/OTRadioLink_SecureableFrameType.cpp:SimpleSecureFrame32or0BodyTXBase::encode"]}
{"id": "C177", "title": "The secure channel delivers intact frames", "statement": "In the system of C175, a sent frame that arrives intact is accepted and reported exactly as sent, whatever was delivered before, unless it or a later frame of the same node has already been accepted.", "quantifier": "all reachable states of the whole system, all delays and reorderings, all ciphers that decrypt what was encrypted", "why_tests_cant": "unbounded adversarial histories before the delivery", "anchors": ["content/OTRadioLink/utility/OTRadioLink_SecureableFrameType.cpp", "content/OTRadioLink/utility/OTRadioLink_SecureableFrameType_V0p2Impl.cpp:SimpleSecureFrame32or0BodyRXV0p2"]}
{"id": "C178", "title": "Stack low-water mark", "statement": "The recorded lowest stack position is exactly the lowest of the start value and of all positions at which recordIfMinSP was called since the last reset, whatever interrupts make such calls at whatever points inside other calls; without such interrupts the reported location is that of the first call at the lowest position.", "quantifier": "all call sequences, all nestings of interrupts at all points inside a call", "why_tests_cant": "interrupts inside the load/compare/exchange window cannot be scheduled by a unit test", "anchors": ["content/OTRadioLink/utility/OTV0P2BASE_Util.h:MemoryChecks::recordIfMinSP", "content/OTRadioLink/utility/OTV0P2BASE_Util.h:MemoryChecks::resetMinSP"]}
{"id": "C179", "title": "Low-stack warning", "statement": "WARN_STACK_SPACE_LOW is reported when (and only when) the recorded stack mark has come within 64 bytes of the end of the variables.", "quantifier": "all call sequences and interrupt nestings", "why_tests_cant": "the warning depends on the history of the mark, not one call", "anchors": ["content/OTRadioLink/utility/OTV0P2BASE_Util.h:MemoryChecks::recordIfMinSP"]}
{"id": "C180", "title": "The main-loop stack check", "statement": "stackCheck() complains exactly if some position recorded since start-up was less than 64 bytes above the end of the variables, and resets the processor exactly if one was at or below it.", "quantifier": "all call histories with any interrupt nesting, all RAM layouts below 0x8000", "why_tests_cant": "histories are unbounded; on the target it resets", "anchors": ["content/OTRadioLink/utility/OTV0P2BASE_Util.cpp:stackCheck", "content/OTRadioLink/utility/OTV0P2BASE_Util.h:MemoryChecks::forceResetIfStackOverflow"]}
{"id": "C181", "title": "Profiling tables", "statement": "The call table's highest and lowest counts are those over the completed periods, and the time table holds the longest call and its start.", "quantifier": "all histories of calls, exits and resets", "why_tests_cant": "unbounded histories, wrap of the sub-cycle clock", "anchors": ["content/OTRadioLink/utility/OTV0P2BASE_Util.h:MemoryChecks::resetCallTable", "content/OTRadioLink/utility/OTV0P2BASE_Util.h:MemoryChecks::fnExit"]}
{"id": "C182", "title": "Setback lockout lasts the days set", "statement": "A setback lockout of n days (set with \"G 0 255-n\") is in force for exactly n daily countdowns and then over for good; until then a valve in WARM mode is held at the full WARM temperature; a power failure in a countdown leaves the old or the new value, and nothing else in EEPROM changes.", "quantifier": "all EEPROM contents, numbers of days, crash points, states of occupancy, light and schedule", "why_tests_cant": "all contents and crash points", "anchors": ["content/OTRadioLink/utility/OTRadValve_ModelledRadValve.h:countDownSetbackLockout", "content/OTRadioLink/utility/OTRadValve_ModelledRadValve.h:getSetbackLockout", "content/OTRadioLink/utility/OTRadValve_ModelledRadValve.h:computeTargetTemp"]}
{"id": "C183", "title": "The boiler runs only if a valve asked", "statement": "In a house of any number of transmitters sharing a key with a boiler hub, and a network that may deliver any bytes in any order any number of times: the boiler output is on only if within the last minimum-on-time the hub accepted a message asking for heat (50-100%) that one of the transmitters had sent; and the total time the boiler has been on is less than the minimum on time for each message asking for heat ever sent.", "quantifier": "every number of transmitters, every history of sends, transmitter and hub restarts and power failures, deliveries of arbitrary bytes and main-loop ticks, every cipher that cannot be forged", "why_tests_cant": "The claim is about every interleaving of several devices and an adversarial network over unbounded histories.", "anchors": ["content/OTRadioLink/utility/OTRadioLink_Messaging.h:decodeAndHandleRawRXedMessage", "content/OTRadioLink/utility/OTRadioLink_Messaging.h:boilerFrameOperation", "content/OTRadioLink/utility/OTRadValve_BoilerDriver.h:remoteCallForHeatRX", "content/OTRadioLink/utility/OTRadValve_BoilerDriver.h:processCallsForHeat", "content/OTRadioLink/utility/OTRadioLink_SecureableFrameType.h:encodeValveFrame", "content/OTRadioLink/utility/OTRadioLink_SecureableFrameType_V0p2Impl.cpp:authAndUpdateRXMessageCounter"]}
{"id": "C184", "title": "A valve that asks gets heat", "statement": "In the same house, a message asking for at least 66% from a node the hub knows, arriving intact and fresh, turns the boiler on at the next tick if the boiler is on already or has been off for the minimum off time, whatever happened before; and the boiler then stays on for the minimum on time less one tick whatever else arrives.", "quantifier": "every history as for C183, every continuation", "why_tests_cant": "The claim is about every history before and after the message, including hostile ones.", "anchors": ["content/OTRadioLink/utility/OTRadioLink_Messaging.h:decodeAndHandleRawRXedMessage", "content/OTRadioLink/utility/OTRadioLink_Messaging.h:boilerFrameOperation", "content/OTRadioLink/utility/OTRadValve_BoilerDriver.h:remoteCallForHeatRX", "content/OTRadioLink/utility/OTRadValve_BoilerDriver.h:processCallsForHeat"]}
{"id": "C185", "title": "Receiving hardly wears the EEPROM", "statement": "Over any history of received-counter updates for any associated nodes, no EEPROM cell of a node's record has a bit set (an erase) more often than once for each 17 steps its counter advances, plus a bounded start-up allowance; and an update writes only to the counter part of the record of the node it is for.", "quantifier": "all histories of authenticated-counter updates (any nodes, any counters, accepted or not), all clean records, all EEPROM contents elsewhere", "why_tests_cant": "The bound is about the cumulative effect of arbitrarily long histories; a test counts writes in one.", "anchors": ["content/OTRadioLink/utility/OTRadioLink_SecureableFrameType_V0p2Impl.cpp:SimpleSecureFrame32or0BodyRXV0p2::authAndUpdateRXMsgCtr", "content/OTRadioLink/utility/OTRadioLink_SecureableFrameType_V0p2Impl.cpp:updateRXMessageCountAfterAuthentication", "content/OTRadioLink/utility/OTV0P2BASE_EEPROM.cpp:eeprom_smart_update_byte"]}
{"id": "C186", "title": "Sending hardly wears the EEPROM", "statement": "Whatever the EEPROM holds at first and whatever restarts and power failures happen, asking for transmit counters erases no EEPROM cell more than once per start plus once for each 15*2^20 counters asked for, erases nothing outside the 8 counter cells, and after the first call following a start the next 15*2^20-1 calls write nothing.", "quantifier": "all EEPROM contents, all histories of counter requests, restarts and power failures at every write", "why_tests_cant": "Needs 15 million calls and every crash point; a test sees a few.", "anchors": ["content/OTRadioLink/utility/OTRadioLink_SecureableFrameType_V0p2Impl.cpp:SimpleSecureFrame32or0BodyTXV0p2::incrementAndGetPrimarySecure6BytePersistentTXMessageCounter", "content/OTRadioLink/utility/OTRadioLink_SecureableFrameType_V0p2Impl.cpp:getTXNVCtrPrefix"]}
{"id": "C187", "title": "A unit gives itself a valid ID and keeps it", "statement": "When ensureIDCreated() returns, it returns true exactly if all 8 stored ID bytes are valid; bytes that were unset (or all, if forced) are then taken in order from the random source and the others are unchanged; it writes only the ID bytes; it returns true unless some byte was invalid; it returns if the random source offers eight usable bytes; once all bytes are valid an unforced call writes nothing; and calls cut off by power failures at any point leave no invalid byte, so a later call completes the ID, and unforced calls never change a byte once set.", "quantifier": "all EEPROM contents, all random bytes, forced or not, all sequences of interrupted calls", "why_tests_cant": "all EEPROM contents and all crash points", "anchors": ["content/OTRadioLink/utility/OTV0P2BASE_Security.cpp:ensureIDCreated", "content/OTRadioLink/utility/OTV0P2BASE_Security.h:validIDByte"]}
{"id": "C188", "title": "Interrupted administration", "statement": "If clearing the associations, adding one, or setting the key is cut off by a power failure, the device is left as before or as if the operation had been completed: a cut-off clear leaves the old associations or none (for good), a cut-off add leaves every other node findable as before, a cut-off key change leaves the old or the new key.", "quantifier": "all tables, IDs, keys and crash points", "why_tests_cant": "every crash point of every operation", "anchors": ["content/OTRadioLink/utility/OTV0P2BASE_Security.cpp:clearAllNodeAssociations", "content/OTRadioLink/utility/OTV0P2BASE_Security.cpp:addNodeAssociation", "content/OTRadioLink/utility/OTV0P2BASE_Security.cpp:setPrimaryBuilding16ByteSecretKey", "content/OTRadioLink/utility/OTV0P2BASE_Security.cpp:countNodeAssociations"]}
{"id": "C189", "title": "Replay protection survives administration", "statement": "No administration of the receiver that keeps the key makes a counter already accepted from a node acceptable again: neither adding other nodes, nor creating the unit ID, nor re-associating the node.", "quantifier": "all tables, nodes, counters", "why_tests_cant": "all EEPROM contents and histories", "anchors": ["content/OTRadioLink/utility/OTV0P2BASE_Security.cpp:addNodeAssociation", "content/OTRadioLink/utility/OTV0P2BASE_Security.cpp:clearAllNodeAssociations", "content/OTRadioLink/utility/OTRadioLink_SecureableFrameType_V0p2Impl.cpp:SimpleSecureFrame32or0BodyRXV0p2::authAndUpdateRXMsgCtr"]}
{"id": "C190", "title": "A warm house is never heated", "statement": "If every temperature a room's valve reads is above its target by the margin the valve needs to close, and nobody presses BAKE, then the boiler is never turned on: whatever frames attackers replay or forge, whichever messages are lost, whenever the hub or the valves restart or lose power.", "quantifier": "all houses (any number of valves), all reading histories, all attacks and all schedules", "why_tests_cant": "the joint history of several units and an attacker", "anchors": ["content/OTRadioLink/utility/OTRadValve_ModelledRadValve.cpp:computeRequiredTRVPercentOpen", "content/OTRadioLink/utility/OTRadValve_BoilerDriver.h:OnOffBoilerDriverLogic", "content/OTRadioLink/utility/OTRadioLink_SecureableFrameType.cpp:decode"]}
{"id": "C191", "title": "A freezing room is heated", "statement": "A room whose readings stay well below the frost target has its valve fully open after at most 27 minutes (11 after a start), and from then on any message it sends that reaches the hub intact and fresh turns the boiler on at the next tick if the boiler is on or has been off for its minimum off time, and it then stays on for the minimum on time. (The valve must be allowed to open to at least 66%.)", "quantifier": "all valves, reading histories, schedules of the other units and the attacker", "why_tests_cant": "the joint history of several units", "anchors": ["content/OTRadioLink/utility/OTRadValve_ModelledRadValve.cpp:computeRequiredTRVPercentOpen", "content/OTRadioLink/utility/OTRadValve_BoilerDriver.h:OnOffBoilerDriverLogic", "content/OTRadioLink/utility/OTRadioLink_SecureableFrameType.cpp:decode"]}
{"id": "C192", "title": "Sensor statistics reach the log", "statement": "The statistics a sensor writes into a secure frame come out of the hub's serial port as one line that a reader resolves to the sender's ID, the low four bits of its message counter as sequence number, and exactly the entries written, with their values; a frame with no statistics prints nothing.", "quantifier": "all statistics sets, IDs, counters, keys and earlier histories", "why_tests_cant": "crosses four components on two devices over all data", "anchors": ["content/OTRadioLink/utility/OTV0P2BASE_JSONStats.h:SimpleStatsRotationBase::writeJSON", "content/OTRadioLink/utility/OTRadioLink_Messaging.h:serialFrameOperation", "content/OTRadioLink/utility/OTRadioLink_SecureableFrameType.cpp:encodeValveFrame"]}
{"id": "C193", "title": "Heating stops when nobody asks", "statement": "Once every message asking for heat has been accepted or overtaken at the hub, no call for heat is acted on again, whatever is replayed or forged, and the boiler is off after its minimum on time.", "quantifier": "all houses, attackers and schedules", "why_tests_cant": "unbounded histories with an attacker", "anchors": ["content/OTRadioLink/utility/OTRadValve_BoilerDriver.h:OnOffBoilerDriverLogic", "content/OTRadioLink/utility/OTRadioLink_SecureableFrameType.cpp:decode"]}
{"id": "C194", "title": "Analogue reads end, and read the right input", "statement": "After powerSetup(), in any sequence of analogue reads and ADC power changes by the application, no read waits for a conversion that cannot end, each conversion is made with the reference and channel asked for, and each read leaves the ADC, its power, the comparator and the reference as found.", "quantifier": "all sequences of analogue operations and all register contents before", "why_tests_cant": "all sequences of register states", "anchors": ["content/OTRadioLink/utility/OTV0P2BASE_ADC.cpp:_analogueNoiseReducedReadM", "content/OTRadioLink/utility/OTV0P2BASE_ADC.cpp:analogueVsBandgapRead", "content/OTRadioLink/utility/OTV0P2BASE_ADC.cpp:noisyADCRead", "content/OTRadioLink/utility/OTV0P2BASE_PowerManagement.cpp:powerUpADCIfDisabled"]}
{"id": "C195", "title": "Internal temperature", "statement": "readInternalTemperatureC16() returns the calibrated linear function of the sensor reading for every reading.", "quantifier": "all 10-bit readings and the time-out value", "why_tests_cant": "tests try room temperature", "anchors": ["content/OTRadioLink/utility/OTV0P2BASE_ADC.cpp:readInternalTemperatureC16"]}
{"id": "C196", "title": "The noisy ADC read wastes no noise", "statement": "noisyADCRead() is a one-to-one function of the low byte of its supply reading, of the low byte of the last input read and of the time (modulo 256) its last conversion took, all else equal, so noise in any of them is passed on undiminished.", "quantifier": "all ADC readings and conversion times", "why_tests_cant": "entropy loss is a statement about all inputs", "anchors": ["content/OTRadioLink/utility/OTV0P2BASE_ADC.cpp:noisyADCRead"]}
{"id": "C197", "title": "What has power after set-up", "statement": "powerSetup() leaves the ADC, SPI, TWI, UART, timer 1 and switched supply off and timers 0 and 2 on whatever was on before; minimisePowerWithoutSleep() never touches the UART or those timers; and conversions then run at a clock in the range the ADC needs.", "quantifier": "all states before, and all later sequences of reads", "why_tests_cant": "all states", "anchors": ["content/OTRadioLink/utility/OTV0P2BASE_PowerManagement.cpp:powerSetup", "content/OTRadioLink/utility/OTV0P2BASE_PowerManagement.cpp:minimisePowerWithoutSleep"]}
{"id": "C198", "title": "The control loop keeps the room warm", "statement": "A valve and the room it heats, one reading a minute: if the target is never below t and the room, when below t, does not cool once the radiator has been fully open for L readings, then the room is never colder than (20 + L)/16C below t (or (11 + L)/16C below where it started, if it started lower), whatever users, schedule and occupancy do and however else the room behaves.", "quantifier": "all rooms meeting the hypothesis, all settings, all sequences of user and schedule actions, for ever", "why_tests_cant": "unbounded closed-loop behaviour of an arbitrary plant", "anchors": ["content/OTRadioLink/utility/OTRadValve_ModelledRadValveState.h:ModelledRadValveState::tick", "content/OTRadioLink/utility/OTRadValve_ModelledRadValveState.h:computeRequiredTRVPercentOpen", "content/OTRadioLink/utility/OTRadValve_ModelledRadValve.h:ModelledRadValve"]}
{"id": "C199", "title": "The control loop does not overheat the room", "statement": "If the target is never above t, BAKE is not used, and the room, when above t, does not warm once the radiator has been closed for L readings, then the room is never warmer than (48 + L)/16C above t (or (36 + L)/16C above where it started, if it started higher).", "quantifier": "all rooms meeting the hypothesis, all settings, all sequences of user and schedule actions, for ever", "why_tests_cant": "unbounded closed-loop behaviour of an arbitrary plant", "anchors": ["content/OTRadioLink/utility/OTRadValve_ModelledRadValveState.h:ModelledRadValveState::tick", "content/OTRadioLink/utility/OTRadValve_ModelledRadValveState.h:computeRequiredTRVPercentOpen"]}
{"id": "C200", "title": "The control loop warms a cold room", "statement": "If moreover a fully open radiator warms the room by 1/16C in any H readings, a room starting d/16C too cold is up to temperature within 11 + L + H*(d + 12 + L) readings, and from then on never falls further than C198 says below it.", "quantifier": "all rooms meeting the hypotheses, all starting temperatures", "why_tests_cant": "convergence over unbounded time", "anchors": ["content/OTRadioLink/utility/OTRadValve_ModelledRadValveState.h:ModelledRadValveState::tick"]}
{"id": "C201", "title": "The control loop cools a hot room", "statement": "With the target at the warm setting, and a closed radiator letting the room cool by 1/16C in any H readings, a room starting d/16C too warm has cooled within d + 2L + 221 + H*(d + 37 + L) readings, and from then on stays within the bound of C199.", "quantifier": "all rooms meeting the hypotheses, all starting temperatures", "why_tests_cant": "convergence over unbounded time", "anchors": ["content/OTRadioLink/utility/OTRadValve_ModelledRadValveState.h:ModelledRadValveState::tick", "content/OTRadioLink/utility/OTRadValve_ModelledRadValveState.h:computeRequiredTRVPercentOpen"]}
{"id": "C202", "title": "The relay is on when it should be", "statement": "A heater relay is never on from reset to the first set(), and after setup(), in any sequence of set() calls, is on exactly when the last legal value was 50 or more; illegal values are rejected without effect, and get(), really-open and calling-for-heat agree with the pin, for active-high and active-low relays.", "quantifier": "all sequences of set() values, both polarities", "why_tests_cant": "all sequences; the pin is not visible to the portable tests", "anchors": ["content/OTRadioLink/utility/OTRadValve_AbstractRadValve.h:BinaryRelayDirect"]}
{"id": "C203", "title": "A relay heater follows its thermostat and does not chatter", "statement": "With the relay behind a modelled valve the heater is off before the first reading, then on exactly while the position is 50% or more, was on whenever heat is called for; once off it is off for at least eleven readings (unless BAKE is asked for), once on for at least ten.", "quantifier": "all valve configurations, readings, user and schedule actions", "why_tests_cant": "all histories", "anchors": ["content/OTRadioLink/utility/OTRadValve_AbstractRadValve.h:BinaryRelayDirect", "content/OTRadioLink/utility/OTRadValve_ModelledRadValveState.h:ModelledRadValveState::tick"]}
{"id": "C204", "title": "A relay heater regulates its room", "statement": "The bounds of C198 and C199 hold for a room heated by a relay-switched heater: when a heater on for L readings stops the cooling, and off for L readings stops the warming.", "quantifier": "all such rooms, for ever", "why_tests_cant": "unbounded closed loop", "anchors": ["content/OTRadioLink/utility/OTRadValve_AbstractRadValve.h:BinaryRelayDirect", "content/OTRadioLink/utility/OTRadValve_ModelledRadValveState.h:computeRequiredTRVPercentOpen"]}
{"id": "C205", "title": "Serial output is complete and in order", "statement": "For every sequence of prints, scopes that power the port, direct output, flushes and power changes from reset, under every fair interleaving of CPU, UART transmitter and interrupt, the program ends with exactly the printed bytes on the line or on their way, in order; what print-and-flush, flush or a powering scope printed has left when they return; and powering down never cuts off or loses a byte.", "quantifier": "all operation sequences, texts and fair schedules", "why_tests_cant": "interleavings of interrupt, hardware and program; power-down races", "anchors": ["content/OTRadioLink/utility/OTV0P2BASE_PowerManagement.cpp:flushSerialProductive", "content/OTRadioLink/utility/OTV0P2BASE_PowerManagement.cpp:powerDownSerial", "content/OTRadioLink/utility/OTV0P2BASE_Serial_IO.cpp:serialPrintAndFlush", "content/OTRadioLink/utility/OTV0P2BASE_PowerManagement.h:RAII_EnableSerial"]}
{"id": "C206", "title": "Serial operations never hang", "statement": "No sequence of serial prints, flushes, powering scopes or handled messages hangs the device.", "quantifier": "all operation sequences and schedules", "why_tests_cant": "non-termination under every schedule", "anchors": ["content/OTRadioLink/utility/OTV0P2BASE_PowerManagement.cpp:flushSerialHW", "content/OTRadioLink/utility/OTRadioLink_Messaging.h:OTMessageQueueHandler::handle"]}
{"id": "C207", "title": "Statistics follow the sensors", "statement": "In a statistics holder made from sensors (and placeholders), after any history of refreshes, other puts of reserved names, removals and frames written, a refresh succeeds; then every available sensor has an entry with its current value and its own priority, marked changed if new or different, every unavailable one has none, and nothing else is touched; names reserved by placeholders can always be put.", "quantifier": "all holders, histories and sensor states", "why_tests_cant": "all histories of availability; capacity never runs out", "anchors": ["content/OTRadioLink/utility/OTV0P2BASE_JSONStats.h:JSONStatsHolder", "content/OTRadioLink/utility/OTV0P2BASE_JSONStats.h:SimpleStatsRotationBase::putOrRemove"]}
{"id": "C208", "title": "Every sensor is heard", "statement": "If all sensors are available and the statistics refreshed before each frame, then in any 4n consecutive frames (n sensors) each sensor of normal priority has its then current value transmitted, whatever values all take, if each fits a frame by itself.", "quantifier": "all sensor sets, value histories, frame sizes, flags", "why_tests_cant": "unbounded histories", "anchors": ["content/OTRadioLink/utility/OTV0P2BASE_JSONStats.h:JSONStatsHolder", "content/OTRadioLink/utility/OTV0P2BASE_JSONStats.cpp:SimpleStatsRotationBase::writeJSON"]}
{"id": "C209", "title": "A receive queue changes nothing but timing", "statement": "With the hub's radio putting frames on its interrupt-driven queue and the main loop taking them off, over every history of the whole house (valves, network, interrupts at any point, hub restarts and power failures) the messages handled are the frames taken in, in order, each once; memory outside the queue is never touched; and the house only reaches states it can reach without the queue, so all properties of the house (C183\u2013C193) carry over.", "quantifier": "all histories of the house, interrupt placements, queue sizes, memory contents", "why_tests_cant": "unbounded interleavings", "anchors": ["content/OTRadioLink/utility/OTRadioLink_Messaging.h:OTMessageQueueHandler::handle", "content/OTRadioLink/utility/OTRadioLink_ISRRXQueue.h:ISRRXQueueVarLenMsg", "content/OTRadioLink/utility/OTRadValve_BoilerDriver.h:OnOffBoilerDriverLogic"]}
{"id": "C210", "title": "Every message taken in gets handled", "statement": "A message waiting in the hub's queue behind n others has been handled, as received, once handle() has been called n+1 times early enough in the cycle, whatever else happens meanwhile, unless the hub restarts; and what the hub accepts before it comes from the messages that waited ahead of it.", "quantifier": "all histories", "why_tests_cant": "liveness under all interleavings", "anchors": ["content/OTRadioLink/utility/OTRadioLink_Messaging.h:OTMessageQueueHandler::handle"]}
{"id": "C211", "title": "Every sensor reaches the hub's log", "statement": "A node refreshes its statistics from its n sensors before each frame and sends them as the JSON body of a secure valve frame; if each of the frames arrives intact and fresh, with any other traffic, ticks and restarts in between, then among any 4n consecutive frames each sensor of normal priority has its then current value printed by the hub on a line that is a JSON object carrying the node's ID.", "quantifier": "all sensor sets, values over time, buffer sizes, histories of the house", "why_tests_cant": "liveness of a rotation through the whole stack, over all histories", "anchors": ["content/OTRadioLink/utility/OTV0P2BASE_JSONStats.h:JSONStatsHolder", "content/OTRadioLink/utility/OTV0P2BASE_JSONStats.cpp:SimpleStatsRotationBase::writeJSON", "content/OTRadioLink/utility/OTRadioLink_SecureableFrameType_V0p2Impl.h:SimpleSecureFrame32or0BodyTXBase::encodeValveFrame", "content/OTRadioLink/utility/OTRadioLink_MessagingFrameHandler.h:serialFrameOperation"]}
{"id": "C212", "title": "Reading an analogue input never hangs", "statement": "A noise-reduced ADC read always ends, however conversions, their interrupt, other interrupts and the program interleave - also if a conversion ends between testing the completion flag and going to sleep, or if an old conversion's interrupt flag is still set - as long as the CPU keeps running and conversions take finite time.", "quantifier": "all inputs, numbers of samples, interleavings, initial register contents", "why_tests_cant": "lost wake-ups need particular interleavings", "anchors": ["content/OTRadioLink/utility/OTV0P2BASE_ADC.cpp:_analogueNoiseReducedReadM"]}
{"id": "C213", "title": "Analogue readings are genuine", "statement": "Every value such a read uses is the whole value (never half of one and half of another) of a conversion of the input asked for that ended during the call, each later than the previous one; the last is returned (1024 if there was no time for any); at most the number asked for are taken and it stops once two in a row agree; and the converter is left powered or not as found with its interrupt off.", "quantifier": "all interleavings, inputs, sample counts", "why_tests_cant": "torn reads and stale results need particular interleavings", "anchors": ["content/OTRadioLink/utility/OTV0P2BASE_ADC.cpp:_analogueNoiseReducedReadM"]}
{"id": "C214", "title": "Analogue reads do not disturb each other", "statement": "Each of a sequence of reads of different inputs returns a value of its own input.", "quantifier": "all sequences and interleavings", "why_tests_cant": "depends on a conversion still running", "anchors": ["content/OTRadioLink/utility/OTV0P2BASE_ADC.cpp:_analogueNoiseReducedReadM"]}
{"id": "C215", "title": "A request for heat waiting in the hub's queue is served", "statement": "In the house with the hub's receive queue: an intact, fresh message asking for at least 66% from a node the hub knows, waiting behind n others, turns the boiler on once the main loop has called handle() early enough in its cycle n+1 times and ticked once, and the boiler is on at least until the minimum on time counted from where the message waited is over \u2014 whatever else arrives, at whatever moment, in whatever interleaving of interrupts, calls and ticks \u2014 if the hub does not restart and the boiler had been off long enough (or is on). So the report of a freezing room's valve reaches the boiler through the queue.", "quantifier": "all histories of the house, the network and the radio interrupt; all queue contents, sizes and positions of the message; all valve reading histories (frost)", "why_tests_cant": "interleavings of interrupts, handle() calls and ticks with messages of any content ahead of and behind the one followed", "anchors": ["content/OTRadioLink/utility/OTRadioLink_ISRRXQueue.h:ISRRXQueueVarLenMsg", "content/OTRadioLink/utility/OTRadioLink_Messaging.h:OTMessageQueueHandler::handle", "content/OTRadioLink/utility/OTRadValve_BoilerDriver.h:OnOffBoilerDriverLogic"]}
{"id": "C216", "title": "What the EEPROM holds makes a difference to the generator at start-up", "statement": "After seedPRNGs(), all other inputs (memory, clocks, noise, generator before) being the same, two EEPROM contents that differ only within two neighbouring bytes outside the seed area give different generator states; two generator states before give two after; and of the EEPROM only one of the four seed bytes is written: erased exactly if it was 0, else only cleared in bits.", "quantifier": "all EEPROM contents and positions, memory contents, clock and noise values, generator states", "why_tests_cant": "a statement about pairs of EEPROM contents of any length and all noise values", "anchors": ["content/OTRadioLink/utility/OTV0P2BASE_Entropy.cpp:seedPRNGs", "content/OTRadioLink/utility/OTV0P2BASE_Entropy.cpp:eeCRC"]}
{"id": "C217", "title": "clockJitterEntropyByte() returns after eight changed counts", "statement": "clockJitterEntropyByte() returns once eight counts, of watchdog and RTC together, have differed from the one before of the same clock, and not before; the byte is made of these eight in order. It should return whatever the clocks do: refuted, with clocks that do not jitter against the CPU it never returns.", "quantifier": "all sequences of clock observations, start hashes", "why_tests_cant": "unbounded loop driven by hardware clocks", "anchors": ["content/OTRadioLink/utility/OTV0P2BASE_Sleep.cpp:clockJitterEntropyByte"]}
{"id": "C218", "title": "Every jitter count moves the byte", "statement": "Of the eight counts that make the byte of clockJitterEntropyByte(), each moves it: all else the same, two values of one count give the same byte exactly if they differ (XOR) by one of a fixed set of at most four values; the third to sixth counts lose nothing.", "quantifier": "all start hashes, all counts, all places", "why_tests_cant": "a statement about 2^64 combinations of counts", "anchors": ["content/OTRadioLink/utility/OTV0P2BASE_Sleep.cpp:clockJitterEntropyByte"]}
{"id": "C219", "title": "A hung main loop is reset, a fed one is not", "statement": "With the RTC watchdog: a clock tick forces a reset exactly if the watchdog is enabled and since an earlier tick at which it was enabled resetRTCWatchDog() has not been called. So a main loop that hangs is reset by the second tick at the latest, and one that calls resetRTCWatchDog() between any two ticks never is. Enabling it should give the loop at least one whole cycle: refuted, the flag outlives a time of being disabled.", "quantifier": "all histories of ticks, resetRTCWatchDog() and enableRTCWatchdog() calls, all clock states", "why_tests_cant": "interrupts at any point of histories of any length", "anchors": ["content/OTRadioLink/utility/OTV0P2BASE_RTC.cpp:enableRTCWatchdog", "content/OTRadioLink/utility/OTV0P2BASE_RTC.cpp:resetRTCWatchDog", "content/OTRadioLink/utility/OTV0P2BASE_RTC.cpp:TIMER2_OVF_vect"]}
{"id": "C220", "title": "Naps last their time and leave the watchdog off", "statement": "nap(t) and nap(t, premature), run step by step beside the hardware watchdog and other interrupts: the chip is never reset by it as long as interrupts never keep the CPU for the length of the nap; on return the watchdog is off and interrupts are on; a nap that may not end early has lasted its time, one that may says truthfully whether it has, even with a time-out flag left from before; it ends if other interrupts keep coming. It should end without them too: refuted (lost wake-up).", "quantifier": "all interleavings of CPU steps, watchdog clock and other interrupts; all nap lengths; all watchdog and interrupt states before", "why_tests_cant": "interleavings down to single steps of the program", "anchors": ["content/OTRadioLink/utility/OTV0P2BASE_Sleep.cpp:nap", "content/OTRadioLink/utility/OTV0P2BASE_Sleep.cpp:WDT_vect", "content/OTRadioLink/utility/OTV0P2BASE_Sleep.cpp:sleepPwrSaveWithBODDisabled"]}
{"id": "C221", "title": "forceReset() resets", "statement": "Once forceReset() is called the chip is reset, whatever the watchdog was doing before and whatever interrupts are pending: exactly at the time-out counted from where it set the watchdog, and in every schedule in which CPU and watchdog clock go on.", "quantifier": "all watchdog and interrupt states, all interleavings", "why_tests_cant": "interleavings and hardware state that cannot be set up in a test", "anchors": ["content/OTRadioLink/utility/OTV0P2BASE_Sleep.h:forceReset"]}
{"id": "C222", "title": "The whole heating system keeps a room warm", "statement": "A radiator valve reads its room once a minute and its position reaches the boiler hub over the secured radio link at least once in any D minutes (D at least two minutes less than the boiler's minimum on time). Then, whatever state the boiler was in, whatever else arrives at the hub (replays, forgeries, other valves) and whoever else asks for heat: once the valve has been at 66% or more for 2D + minimum on time + 1 minutes the boiler is on at every tick for as long as the valve stays open; and so, if the room when cold stops cooling once the radiator has been fully open with the boiler on for L minutes, the room never gets colder than (12 + L + 2D + minimum on time)/16 C below the lower of where it started and 9/16 C under the target, for any settings, schedule, occupancy and use of the buttons that keep the target up.", "quantifier": "every valve set-up that may open to 66% or more, every slowly changing sequence of room temperatures and other readings, every history of transmitters, network and hub without a hub restart, every D, L and length of time", "why_tests_cant": "the claim is about the joint behaviour of valve controller, frame security, message handling and boiler control over unbounded time, under every network adversary and every thermal behaviour of the room", "anchors": ["content/OTRadioLink/utility/OTRadValve_BoilerDriver.h:OnOffBoilerDriverLogic", "content/OTRadioLink/utility/OTRadValve_ModelledRadValveState.h:ModelledRadValveState", "content/OTRadioLink/utility/OTRadioLink_Messaging.h:authAndDecodeOTSecureableFrame", "content/OTRadioLink/utility/OTRadioLink_SecureableFrameType.cpp:encodeRaw"]}
{"id": "C223", "title": "Dark, pitch dark and lit agree with the light readings", "statement": "isRoomVeryDark() is true exactly when the ambient light sensor's range is good and the last reading was at most 4; once a reading lies beyond the thresholds isRoomLit() and isRoomDark() say what the reading said; before any reading the room is never reported lit. Documented as well: isRoomDark() and isRoomVeryDark() are false if the light level is unknown, which is refuted (both are true from power-up until a reading says otherwise), and a room can be reported lit and pitch dark at once, since only the first has hysteresis.", "quantifier": "every history of readings, of typical ranges set from statistics, and of callbacks", "why_tests_cant": "the flags depend on the whole history of readings and range settings", "anchors": ["content/OTRadioLink/utility/OTV0P2BASE_SensorAmbientLight.h:SensorAmbientLightBase::isRoomDark", "content/OTRadioLink/utility/OTV0P2BASE_SensorAmbientLight.h:SensorAmbientLightBase::isRoomVeryDark", "content/OTRadioLink/utility/OTV0P2BASE_SensorAmbientLight.h:SensorAmbientLightAdaptive"]}
{"id": "C224", "title": "RFM23B: the bytes on the SPI bus do what the register-level model says", "statement": "Over an idle SPI bus a register write (address byte with bit 7 set, then value) changes that register, a read returns it, and each routine of the driver (standby and clear, channel set-up, queueing a frame, emptying the receive FIFO, starting to listen, handling a received frame from the interrupt routine or poll()), carried out byte by byte with slave-select and SPI power as in the code, has exactly the effect of the register-level operation, leaves the bus idle and powered as before and the interrupt flag as it was.", "quantifier": "every state of link object, chip and queue, every frame, number of bytes and channel, every configuration with register addresses below 0x7f", "why_tests_cant": "the effect of a byte depends on the whole transaction it is in; states of registers and FIFOs are unbounded", "anchors": ["content/OTRadioLink/utility/OTRFM23BLink_OTRFM23BLink.h:OTRFM23BLink::_writeReg8Bit_", "content/OTRadioLink/utility/OTRFM23BLink_OTRFM23BLink.h:OTRFM23BLink::_RXFIFO", "content/OTRadioLink/utility/OTRFM23BLink_OTRFM23BLink.h:OTRFM23BLink::_poll", "content/OTRadioLink/utility/OTRFM23BLink_OTRFM23BLink.cpp:OTRFM23BLinkBase::_queueFrameInTXFIFO_"]}
{"id": "C225", "title": "RFM23B: calls are safe against interrupts between any two bytes on the bus", "statement": "With an interrupt line, and whatever happens between any two SPI bytes, power or flag changes or accesses to shared fields of a call by the application (the receive interrupt routine runs if interrupts are on; before any step, of the call or of the interrupt routine, the radio may receive packets, bytes or noise, or end a transmission): poll() amounts to some interrupts and radio events, then at most one undisturbed poll, then some radio events; sendRaw() of at most 64 bytes amounts to some interrupts, then an undisturbed send with the same result, then some radio events; a frame sent on an existing channel goes on the air whole, once (at the highest power once or twice, twice if the call returns true), with its channel's configuration and its own length, and nothing else does; listen() leaves the link on the new channel; and after any sequence of calls the bus is idle, the SPI hardware is off and was never used while off, interrupts are on, and the radio does what the latest listen() said.", "quantifier": "every schedule of interrupts and radio events, every sequence of sendRaw() (up to 64 bytes), poll(), listen(), message removal, frame size setting and waiting after a successful begin(), every sane configuration with an interrupt line", "why_tests_cant": "an interrupt may fall between any two of thousands of bus steps, where the bus, the radio's mode and the shared fields are in intermediate states", "anchors": ["content/OTRadioLink/utility/OTRFM23BLink_OTRFM23BLink.h:OTRFM23BLink::handleInterruptSimple", "content/OTRadioLink/utility/OTRFM23BLink_OTRFM23BLink.h:OTRFM23BLink::_modeStandbyAndClearState_", "content/OTRadioLink/utility/OTRFM23BLink_OTRFM23BLink.h:OTRFM23BLink::_dolistenNonVirtual", "content/OTRadioLink/utility/OTRFM23BLink_OTRFM23BLink.cpp:OTRFM23BLinkBase::sendRaw", "content/OTRadioLink/utility/OTRFM23BLink_OTRFM23BLink.cpp:OTRFM23BLinkBase::_TXFIFO", "content/OTRadioLink/utility/OTRadioLink_OTRadioLink.h:OTRadioLink::listen"]}
{"id": "C226", "title": "RFM23B: every frame handed to the application was received whole, once and in order", "statement": "With all channels in packet mode, whatever calls, polls, interrupts and radio events follow begin(): the frames the application has removed from the receive queue so far, followed by those still waiting, each come from a different packet received on the air, in the order in which these were received; without a receive filter each is exactly its packet, with one it is a non-empty beginning of it; no frame is invented, repeated, reordered, joined with another or padded, and none comes from a packet of more than 64 bytes. Down to bytes on the SPI bus, with interrupts between any two bytes and the radio acting before any step, every waiting frame is likewise a packet that was on the air and the queue never leaves its buffer.", "quantifier": "every history of calls, polls and radio events after a successful begin(); every schedule of interrupts between bus steps; every packet-mode configuration and filter that does not lengthen frames", "why_tests_cant": "needs the relation between all packets ever on the air and all frames ever handed over, over unbounded histories and interleavings", "anchors": ["content/OTRadioLink/utility/OTRFM23BLink_OTRFM23BLink.h:OTRFM23BLink::_poll", "content/OTRadioLink/utility/OTRFM23BLink_OTRFM23BLink.h:OTRFM23BLink::_RXFIFO", "content/OTRadioLink/utility/OTRadioLink_ISRRXQueue.h:ISRRXQueueVarLenMsg", "content/OTRadioLink/utility/OTRadioLink_OTRadioLink.h:OTRadioLink::removeRXMsg"]}
{"id": "C227", "title": "SIM900: the modem is restarted after at most 255 frames", "statement": "Between two power pulses of the modem at most 255 frames are announced to it by poll(), whatever frames are queued and whatever the modem answers, or fails to answer. Once 255 have been announced, the third further poll() near the start of the major cycle at the latest pulses the power pin, with nothing said to the modem before. (The code's \"hard restart every 255 messages\" does not hold for frames sent with sendRaw(): these advance the same 8-bit counter without looking at it.)", "quantifier": "every history of begin(), end(), queueToSend() and poll() calls, at any times, with any characters from the modem", "why_tests_cant": "the limit is only reached after hundreds of calls, and must hold for every modem behaviour on the way", "anchors": ["content/OTRadioLink/utility/OTSIM900Link_OTSIM900Link.h:OTSIM900Link::poll", "content/OTRadioLink/utility/OTSIM900Link_OTSIM900Link.h:OTSIM900Link::initUDPSend", "content/OTRadioLink/utility/OTSIM900Link_OTSIM900Link.h:OTSIM900Link::sendRaw"]}
{"id": "C228", "title": "Node table set/get: the last ID stored in a row is the one read back", "statement": "After any calls of set() on a node association table, get() of a row gives the ID last stored there, or what was there before; set() answers yes exactly when the index is in range and the pointer is not NULL, and otherwise changes nothing; no other byte of the table or of the EEPROM changes. The RAM table and the EEPROM table then answer every search alike, and a search finds the first row from the given index on whose ID begins with the prefix, before the first unused row (a NULL prefix matches all if its length is 0 and none otherwise).", "quantifier": "every history of set() calls with any indices, IDs and EEPROM contents; every index, prefix and prefix length", "why_tests_cant": "histories, tables and prefixes are unbounded in combination; the tests try a few", "anchors": ["content/OTRadioLink/utility/OTV0P2BASE_Security.h:NodeAssociationTableV0p2", "content/OTRadioLink/utility/OTV0P2BASE_Security.h:NodeAssociationTableMock", "content/OTRadioLink/utility/OTV0P2BASE_Security.h:getNextMatchingNodeIDGeneric"]}
{"id": "C229", "title": "Clock: read, set and restored whole while its interrupt runs", "statement": "With the clock interrupt coming between any two byte accesses: getMinutesSinceMidnightLT() and getDaysSince1999LT() give the time at one moment during the call, never a mixture of bytes from two; setHoursMinutesLT() acts as if made at one moment; restoreRTC() answers by the saved bytes alone and puts back the saved date and then the saved time of day; the interrupt flag is left as found; and no tick asked for is lost if ticks are at least 16 program steps apart. (Two calls are not one moment: getHoursLT() followed by getMinutesLT() may read 7 and 0 at 7:59 turning 8:00.)", "quantifier": "every clock state, every EEPROM, every schedule of interrupt requests, every sequence of calls", "why_tests_cant": "an interrupt between two particular machine instructions cannot be provoked by a test", "anchors": ["content/OTRadioLink/utility/OTV0P2BASE_RTC.cpp:getMinutesSinceMidnightLT", "content/OTRadioLink/utility/OTV0P2BASE_RTC.cpp:getDaysSince1999LT", "content/OTRadioLink/utility/OTV0P2BASE_RTC.cpp:setHoursMinutesLT", "content/OTRadioLink/utility/OTV0P2BASE_RTC.cpp:restoreRTC", "content/OTRadioLink/utility/OTV0P2BASE_RTC.cpp:ISR(TIMER2_OVF_vect)"]}
{"id": "C230", "title": "Text written to the software serial line is received byte for byte", "statement": "Whatever bytes are written to the software serial port, and however long the pauses between them, a standard receiver on the line (start bit, eight data bits, stop bit) whose sampling falls inside the bits receives exactly those bytes, in order, with no framing error. So a message of up to 127 bytes given to the LoRa link's sendRaw() arrives at the modem as the command to transmit that message.", "quantifier": "every sequence of bytes, every pauses between them, every bit time and receiver clock within tolerance; every message of up to 127 bytes", "why_tests_cant": "the tests have no line and no modem; byte sequences, pauses and clock errors are unbounded in combination", "anchors": ["content/OTRadioLink/utility/OTV0P2BASE_SoftSerial.cpp:OTSoftSerial::print", "content/OTRadioLink/utility/OTV0P2BASE_SoftSerial2.h:OTSoftSerial2::write", "content/OTRadioLink/utility/OTRN2483Link_OTRN2483Link.cpp:OTRN2483Link::sendRaw"]}
{"id": "C231", "title": "Features stored in EEPROM never disturb each other", "statement": "Every routine of the library that writes the EEPROM writes only within the area the memory map gives to its own feature, whatever its arguments and whatever the EEPROM holds, and the areas do not overlap and lie within the 1024 bytes. So over any history of calls and typed commands, with the power failing after any write of any of them, each feature's stored data (node ID, building key, message counters, associations, schedules, thresholds, statistics, clock...) changes only through calls for that feature; cells that belong to nothing never change.", "quantifier": "every history of calls and commands, with any arguments, any initial EEPROM contents, and power failing at any write", "why_tests_cant": "an overlap shows only for particular arguments and contents, and the unit tests have no EEPROM; the histories are unbounded", "anchors": ["content/OTRadioLink/utility/OTV0P2BASE_EEPROM.h:V0P2BASE_EE_START_*", "content/OTRadioLink/utility/OTV0P2BASE_EEPROM.cpp:eeprom_smart_update_byte", "content/OTRadioLink/utility/OTV0P2BASE_Security.cpp:addNodeAssociation", "content/OTRadioLink/utility/OTRadioLink_SecureableFrameType_V0p2Impl.cpp:saveRaw3BytePersistentTXRestartCounterToEEPROM", "content/OTRadioLink/utility/OTV0P2BASE_CLI.cpp:GenericParam::doCommand"]}
{"id": "C232", "title": "The whole system keeps the room warm, also through the hub's receive queue", "statement": "As C222, but what the radio receives waits in the hub's receive queue until the main loop's handle() takes it off, with frames arriving at any moment and being dropped when the queue is full: if at least once in any D minutes (D at least two less than the boiler's minimum on time) a fresh report of the position of a valve gets into the queue and handle() is then called often enough to reach it, and the room does not cool once the valve and the boiler have been open and on for L minutes, then while the valve's target is at least t the room is never colder than (12 + L + 2D + minOn)/16 C below the lower of where it started and t less 9/16 C.", "quantifier": "every history of readings, user actions, sends, losses, replays, made-up frames, arrivals, queue states, main-loop calls and boiler ticks without a hub restart", "why_tests_cant": "the tests exercise valve, frames, queue, handler and boiler separately; the claim is about all their interleavings over time", "anchors": ["content/OTRadioLink/utility/OTRadioLink_Messaging.h:OTMessageQueueHandler::handle", "content/OTRadioLink/utility/OTRadioLink_ISRRXQueue.h:ISRRXQueueVarLenMsg", "content/OTRadioLink/utility/OTRadValve_BoilerDriver.h:OnOffBoilerDriverLogic", "content/OTRadioLink/utility/OTRadValve_ModelledRadValve.cpp:ModelledRadValveState::tick"]}
{"id": "C233", "title": "Fixed-counter receiver: accepts what it should, as often as it comes", "statement": "The receiver with a fixed ID and counter (for tests and demonstrations) always works with the ID and counter set last, which no frame changes; it accepts a frame exactly when the frame's counter is above the one set and the frame authenticates under the key with the first six bytes of that ID, again and again; the ID it reports is the one set. (The last two bytes of the reported ID are whatever was in the scratch space: refuted.)", "quantifier": "every history of settings and received frames, every frame, key, cipher meeting its contract, body and scratch contents", "why_tests_cant": "histories and frames are unbounded; the two stale bytes depend on what earlier calls left in memory", "anchors": ["content/OTRadioLink/utility/OTRadioLink_SecureableFrameType.h:SimpleSecureFrame32or0BodyRXFixedCounter", "content/OTRadioLink/utility/OTRadioLink_SecureableFrameType.cpp:SimpleSecureFrame32or0BodyRXBase::decode"]}
{"id": "C234", "title": "1-Wire calls keep to the timing of the bus", "statement": "At a 1 MHz CPU clock, with pin operations taking about the time the code allows for, reset(), read_bit() and write_bit() use the line as the DS18B20 data sheet demands and send, receive and return what is meant, whatever calls are made in whatever order, whatever interrupts come when, and however early or late each slave is within its data sheet; no call keeps interrupts off for more than 543 us and the time of its pin operations. (Refuted for a 16 MHz clock.)", "quantifier": "every sequence of calls with any gaps, every interrupt pattern, every number and kind of slaves, every timing of every slave within the data sheet, every cost of pin operations within the margin", "why_tests_cant": "a test has one set of slaves with one set of timings and cannot place interrupts at every instant; the extreme timings rarely occur", "anchors": ["content/OTRadioLink/utility/OTV0P2BASE_MinOW.cpp:MinimalOneWireBase::reset", "content/OTRadioLink/utility/OTV0P2BASE_MinOW.h:MinimalOneWire::read_bit", "content/OTRadioLink/utility/OTV0P2BASE_MinOW.h:MinimalOneWire::write_bit", "content/OTRadioLink/utility/OTV0P2BASE_MinOW.h:MinimalOneWireBase::delayA", "content/OTRadioLink/utility/OTV0P2BASE_Sleep.h:OTV0P2BASE_delay_us"]}
{"id": "C235", "title": "The line printed for a remote node says what the node sent", "statement": "Stats printed with outputCoreStats() are read back from the line as exactly the node ID, temperature, battery state, light and occupancy; nothing is printed without an ID; a message accepted for sending, decoded and printed gives the values put in (temperature held to the range that can be carried, occupancy only when disclosed).", "quantifier": "every node ID, every temperature of either sign, every combination of optional fields, every security level", "why_tests_cant": "a test prints a few messages; the sign of the temperature, leading zeros of the ID and missing fields interact", "anchors": ["content/OTRadioLink/utility/OTV0P2BASE_SimpleBinaryStats.cpp:outputCoreStats", "content/OTRadioLink/utility/OTV0P2BASE_SimpleBinaryStats.cpp:outputMinimalStats"]}
{"id": "C236", "title": "SIM900: the modem reads what the link means", "statement": "If nothing but poll() is called between an announcement (AT+CIPSEND) and its data, the modem accepts the announcements and there are fewer than 255 of them, then the modem, reading only the bytes on its serial line, executes exactly the commands meant and sends exactly the frames written, in that order, and is never left waiting for data. (Refuted when the modem refuses an announcement: the frame is executed as commands; after a sendRaw() that timed out, and at the 255th frame: command text is sent as a packet.)", "quantifier": "every history of begin, end, queueToSend, sendRaw and poll with any modem replies and times, every frame content, every configuration without CR", "why_tests_cant": "a test sends a few harmless frames to a modem that answers; frames may contain any bytes, including CR and command text", "anchors": ["content/OTRadioLink/utility/OTSIM900Link_OTSIM900Link.h:OTSIM900Link::poll", "content/OTRadioLink/utility/OTSIM900Link_OTSIM900Link.h:OTSIM900Link::sendRaw", "content/OTRadioLink/utility/OTSIM900Link_OTSIM900Link.h:OTSIM900Link::initUDPSend", "content/OTRadioLink/utility/OTSIM900Link_OTSIM900Link.h:OTSIM900Link::openUDPSocket", "content/OTRadioLink/utility/OTSIM900Link_OTSIM900Link.cpp:AT_SEND_UDP"]}
{"id": "C237", "title": "Repeating Z clears all statistics without overrunning", "statement": "Given at any time of the cycle and with any contents, the Z command erases at most what fits the rest of the cycle at 2 ms a byte with 40 ms to spare (one byte if there is hardly any time), as many as are left or as it allows itself; it prints 'Zapped.' exactly if there was less to erase than it allows itself, and then every statistic reads as unset; any 360 commands, at any times and mixed with any number cut off by power failures, leave all statistics unset.", "quantifier": "every time of day and cycle at which each command is given, every contents, every sequence of commands with power failures after any write", "why_tests_cant": "tests run the command once at one time; the result depends on how much time is left at each of many commands", "anchors": ["content/OTRadioLink/utility/OTV0P2BASE_CLI.cpp:ZapStats::doCommand", "content/OTRadioLink/utility/OTV0P2BASE_EEPROM.cpp:EEPROMByHourByteStats::_zapStats", "content/OTRadioLink/utility/OTV0P2BASE_Sleep.h:msRemainingThisBasicCycle"]}
{"id": "C238", "title": "Setting, clearing and setting keys again never takes the transmit counter back on a device that is not worn", "statement": "On a device started with both copies of the persistent counter prefix in step and below 100000 (hex), such as a new one, in every history of up to 1048576 requests for a message counter, restarts, lines typed to the K command (with the conditional counter reset as its callback), power failures during requests and during \"K B *\" (any two separated by a completed request) and writes by other code elsewhere in the EEPROM, the counters handed out strictly increase; so setting an old key again never leads to a counter used before. The callback fails exactly when no prefix is readable, and then writes nothing; otherwise it steps a prefix below 200000 (hex) to the next one and replaces a larger one by one from 1 to 0fffff, in both copies, and the device can still send. With a larger prefix the counter does go back.", "quantifier": "all EEPROM contents, random bytes, key command lines, crash points and histories (up to the stated length, which keeps the prefix below the reset threshold)", "why_tests_cant": "a unit test clears the key once on one counter value; reuse of a counter under an old key depends on the whole history of key changes, restarts and power failures", "anchors": ["content/OTRadioLink/utility/OTRadioLink_SecureableFrameType_V0p2Impl.h:resetRaw3BytePersistentTXRestartCounterCond", "content/OTRadioLink/utility/OTV0P2BASE_CLI.cpp:SetSecretKey::doCommand"]}
{"id": "C239", "title": "With the null transmitter no secure frame is ever made", "statement": "When the null transmitter implementation is used, no request for a secure frame, a beacon or a valve frame produces a frame, whatever the type, body, key, encryption function, buffers and ID length.", "quantifier": "all arguments of the three encoders", "why_tests_cant": "a unit test tries one frame", "anchors": ["content/OTRadioLink/utility/OTRadioLink_SecureableFrameType_V0p2Impl.h:SimpleSecureFrame32or0BodyTXV0p2Null"]}
{"id": "C240", "title": "The emulated sub-cycle time of the EFR32 counts a two-second cycle in 256 steps", "statement": "On the EFR32 the sub-cycle time is the number of SysTick interrupts modulo 256, whatever the width of its type; the interrupts are to be 2/256 s apart, so that a cycle is 2 s. (The second part is false: at every core frequency the cycle is over 10% short, 1.792 s, because 2000/256 is truncated to 7 ms.)", "quantifier": "all numbers of interrupts, widths of the type, and core frequencies below 613 MHz", "why_tests_cant": "a unit test does not run the timer; the count must be right after any number of interrupts", "anchors": ["content/OTRadioLink/utility/OTV0P2BASE_Sleep.h:tickSubCycle", "content/OTRadioLink/utility/OTV0P2BASE_Sleep.h:setupEmulated2sSubCycle"]}
{"id": "C241", "title": "The basic software serial port carries strings, numbers and bytes unchanged", "statement": "print(string) puts exactly the characters before the NUL on the line, so that a receiver in step receives exactly them whatever the pauses, and returns their number modulo 256; write(buf, len) exactly the first len bytes; printNum the decimal text of its argument, never overflowing its buffer; read() returns the byte sent when start and stop are seen in time and the samples fall in their bits. (That 0 means a NUL was received is false: silence and a missing stop bit also give 0.)", "quantifier": "all strings, buffers, numbers, bytes, bit times and sampling positions within the stated limits, pauses and polls", "why_tests_cant": "a unit test checks a few characters with a perfect clock", "anchors": ["content/OTRadioLink/utility/OTV0P2BASE_SoftSerial.cpp:OTSoftSerial::print", "content/OTRadioLink/utility/OTV0P2BASE_SoftSerial.cpp:OTSoftSerial::printNum", "content/OTRadioLink/utility/OTV0P2BASE_SoftSerial.cpp:OTSoftSerial::read"]}
{"id": "C242", "title": "Shared variables are never torn by interrupts", "statement": "OTAtomic_t on the AVR: load(), store() and compare_exchange_strong() on a value of any number of bytes take effect in one go with respect to interrupts: however many interrupts come between the byte accesses and whatever they do to the value, there is one moment at which the value is seen (and replaced), the interrupts before it and after it compose with it, and the interrupt enable flag is left as it was; with interrupts off none runs. The one-byte load and store need no lock.", "quantifier": "all value sizes, values, interrupt schedules at byte-access granularity, and effects of interrupt routines", "why_tests_cant": "a torn read needs an interrupt between two particular instructions", "anchors": ["content/OTRadioLink/utility/OTV0P2BASE_Concurrency.h:OTAtomic_t::load", "content/OTRadioLink/utility/OTV0P2BASE_Concurrency.h:OTAtomic_t::store", "content/OTRadioLink/utility/OTV0P2BASE_Concurrency.h:OTAtomic_t::compare_exchange_strong", "content/OTRadioLink/utility/OTV0P2BASE_Concurrency.h:RAII_AtomicBlock"]}
{"id": "C243", "title": "I2C transfers on the EFR32 do what their result says", "statement": "I2CSPM::read() and write(): the result done means that exactly the right bytes were on the bus (start, address, command bytes all acknowledged; for a read, repeated start, read address, one byte from the device for each byte of the buffer, all but the last acknowledged, the last refused; stop) and that the buffer holds exactly the bytes the device gave; nack means that the device refused one of the bytes of this transfer, that the bus was released straight after it and the buffer is untouched; in progress (timeout) only if the bus had fewer than length + 3 steps in the 300000 polls; the error results only if there was such an error. In every case the buffer holds the device's first bytes followed by what it held. With a device that acknowledges, no error and a bus fast enough, the calls succeed, whatever an earlier transfer left behind; missing or empty buffers are refused without touching the bus.", "quantifier": "all devices (arbitrary functions of what was on the bus), addresses, commands, buffer lengths, bus timings, bus errors and peripheral states left by earlier transfers", "why_tests_cant": "a unit test would need a bus; correct acknowledges depend on the buffer length, timing and where the device refuses", "anchors": ["silabs_drivers/cppDrivers/i2c_driver.cpp:I2CSPM::read", "silabs_drivers/cppDrivers/i2c_driver.cpp:I2CSPM::write", "silabs_drivers/cppDrivers/i2c_driver.cpp:I2CSPM::transfer", "silabs_drivers/emlib/em_i2c.c:I2C_Transfer", "silabs_drivers/emlib/em_i2c.c:I2C_TransferInit"]}
{"id": "C244", "title": "SHT21 readings on the EFR32 are those of the sensor", "statement": "If the transfer of a read succeeds, the temperature or humidity returned and kept is the one of the two bytes the sensor gave, by the formulas of C146 and C147, and the other value is left alone; initialisation reads the sensor's user register and writes it back with the resolution bits set, the heater off and the reserved bits kept. (That a failed read is noticed is false: -46.9C, and 250% counted as high, are returned and kept.)", "quantifier": "all sensors, bus timings, earlier states", "why_tests_cant": "a unit test would need the sensor and the bus", "anchors": ["content/OTRadioLink/utility/OTV0P2BASE_SensorSHT21.cpp:RoomTemperatureC16_SHT21::read", "content/OTRadioLink/utility/OTV0P2BASE_SensorSHT21.cpp:HumiditySensorSHT21::read", "content/OTRadioLink/utility/OTV0P2BASE_SensorSHT21.cpp:SHT21_init"]}
{"id": "C245", "title": "The LoRa modem reads the commands that were asked for", "statement": "After any history of calls to the RN2483 link (reset, address, keys, join, status, save, data rate, adaptive data rates, power, send) the modem has read exactly the commands asked for, with the numbers and data given, in that order, and nothing it would refuse. (Proved for one-digit numbers and messages of at most 127 bytes; for larger numbers it is false: the modem is told none.)", "quantifier": "all finite histories of calls, rates, powers and messages", "why_tests_cant": "the reader of the commands is the modem, and the commands depend on every argument and on what was sent before", "anchors": ["content/OTRadioLink/utility/OTRN2483Link_OTRN2483Link.cpp:OTRN2483Link::setDataRate", "content/OTRadioLink/utility/OTRN2483Link_OTRN2483Link.cpp:OTRN2483Link::setTxPower", "content/OTRadioLink/utility/OTRN2483Link_OTRN2483Link.cpp:OTRN2483Link::setAdaptiveDataRate", "content/OTRadioLink/utility/OTRN2483Link_OTRN2483Link.cpp:OTRN2483Link::begin", "content/OTRadioLink/utility/OTRN2483Link_OTRN2483Link.cpp:OTRN2483Link::sendRaw"]}
{"id": "C246", "title": "The older target policy keeps the same promises", "statement": "A valve using the library's other target policy (ModelledRadValveComputeTargetTemp2016): in FROST and BAKE mode and with setbacks locked out it chooses the same target as the default policy; the target is always at least FROST, at most WARM (WARM plus the uplift in BAKE), within 5..95C; in WARM mode it is lowered by at most the full setback, not at all while a schedule is on or the controls were used recently (unless vacant over a day), by at most 1C while occupied, just before a scheduled period or at a comfort setting unless very dark, and at a comfort setting never by more than the eco setback; longer darkness or vacancy never raises it; the valve calls for heat exactly when under target and open enough; and below 4.5C the valve is fully open within 11 readings (11 plus one per percent in glacial mode) and calls for heat, whatever else happens.", "quantifier": "all parameters in range, sensor, schedule, statistics and user inputs, valve states, histories of readings of any length", "why_tests_cant": "the target depends on the combination of a dozen inputs, and protection on their history", "anchors": ["content/OTRadioLink/utility/OTRadValve_ModelledRadValve.h:ModelledRadValveComputeTargetTemp2016", "content/OTRadioLink/utility/OTRadValve_ModelledRadValve.h:computeTargetTemp", "content/OTRadioLink/utility/OTRadValve_ModelledRadValve.h:setupInputState"]}
{"id": "C247", "title": "A whole valve, controller and motor together, heats a freezing room and calls only when open", "statement": "A radiator valve made of the library's controller, actuator object and motor driver: after any history by whose end its room has been below 4.5C at 27 readings running (or at all of at least 11 since power up) with the motor running normally, once the room has stayed so while the motor was polled at least four times, each reporting the end of its travel (and calibration being put off if wanted), the motor is fully open, the valve shows 100%, and, with the binary-only driver or a good enough calibration, the next reading calls for heat. In particular, with the binary-only driver and a motor in working order, from power up: after 21 polls in time, the fitting signal, 18 more polls and 4 more, in a freezing room. In a room that has always been warmer than the WARM setting (no BAKE) it never calls for heat, and its motor, running normally, is fully closed after four polls in time that report the end of the travel with the battery good. Whatever the history, it calls for heat only if the room is below target, the controller wants it at least half open, the motor is running normally and known to be open enough, and the user has signalled that it is fitted. The position shown is always 0..100 and the motor's own once polled, and the motor's target is always the controller's last position.", "quantifier": "all histories of readings, polls, user signals and wiggles in any order, both motor drivers, all hardware behaviours, valve set-ups and room conditions", "why_tests_cant": "the two state machines run at different rates and interleave arbitrarily; what matters is a property of the whole history", "anchors": ["content/OTRadioLink/utility/OTRadValve_ValveMotorDirectV1.h:ValveMotorDirectV1", "content/OTRadioLink/utility/OTRadValve_ModelledRadValve.h:computeCallForHeat", "content/OTRadioLink/utility/OTRadValve_ModelledRadValveState.h:tick", "content/OTRadioLink/utility/OTRadValve_CurrentSenseValveMotorDirect.cpp:poll"]}
{"id": "C248", "title": "A motor in working order starts up", "statement": "From power up, whatever else happens: if at every poll of the valve's motor driver that is not too late in the sub-cycle each run of the motor reports the end of its travel, the driver never gets into its error state, has the pin withdrawn ready for fitting after 21 such polls, and, once the user then signals that the valve is fitted, gets into normal running within 18 more.", "quantifier": "all histories of polls, targets, signals and wiggles, with any number of polls too late, any number of runs per poll, both drivers, calibration put off or not at any poll", "why_tests_cant": "start-up takes dozens of polls whose outcomes and interleavings with other events are unbounded in number", "anchors": ["content/OTRadioLink/utility/OTRadValve_CurrentSenseValveMotorDirect.cpp:poll", "content/OTRadioLink/utility/OTRadValve_CurrentSenseValveMotorDirect.cpp:do_valveCalibrating_prop", "content/OTRadioLink/utility/OTRadValve_CurrentSenseValveMotorDirect.h:signalValveFitted"]}
{"id": "C249", "title": "The boiler runs only for a radiator that is really open, and a freezing room is really heated", "statement": "In a house of whole radiator valves (controller, actuator, motor) and a boiler hub, whose applications report a position other than 0 only while the valve calls for heat: whenever the boiler is on, within the minimum on time just past the hub handled a message asking for heat sent by one of the house's own valves, and at the last reading that valve had taken before sending it, its room was below target, its controller wanted it at least half open, and its motor was running normally, was fitted and was known to be open far enough. Whichever position they report: a house whose rooms are always warm is never heated; and a valve whose room has been freezing for 27 readings (or 11 from a start), its motor having been polled four times, each reporting the end of its travel, is fully open, and its next message that reaches the hub intact and fresh turns the boiler on (if that is on or has been off for its minimum off time) for the minimum on time.", "quantifier": "all houses, kinds and settings of valves, histories of each valve and of the hub, schedules, restarts, power failures, and behaviours of the attacker", "why_tests_cant": "joint histories of any number of valves, motors, a hub and an attacker", "anchors": ["content/OTRadioLink/utility/OTRadValve_ModelledRadValve.h:ModelledRadValve", "content/OTRadioLink/utility/OTRadValve_ValveMotorDirectV1.h:ValveMotorDirectV1", "content/OTRadioLink/utility/OTRadValve_BoilerDriver.h:OnOffBoilerDriverLogic", "content/OTRadioLink/utility/OTRadValve_CurrentSenseValveMotorDirect.h:isControlledValveReallyOpen"]}
{"id": "C250", "title": "The control loop, with the motor, holds the temperature", "statement": "A whole radiator valve (controller, actuator object, motor driver) running normally takes control of a room. If the motor gets where it is wanted within M minutes, room temperature changes by at most 1/16C a minute and, when more than 9/16C below t, does not fall once the motor has been fully open for L minutes (and, when more than 3/4C above t, does not rise once it has been closed for L minutes), then whatever user, schedule and occupancy do, as long as the target is never below t the room never gets colder than (10+L+M)/16C below the lower of where it started and t less 9/16C (and as long as the target is never above t and BAKE is not used, never warmer than (35+L+M)/16C above the higher of where it started and t plus 3/4C). With the boiler run by a hub that hears of the wanted position at least once in any D minutes, the same with 2D + min(254, minimum on time) + 1 minutes more.", "quantifier": "all valves of both kinds, settings, rooms, histories of readings, polls, signals and wiggles, and all behaviours of the other units and the attacker", "why_tests_cant": "an unbounded closed loop of controller, motor, boiler hub and room", "anchors": ["content/OTRadioLink/utility/OTRadValve_ModelledRadValveState.h:computeRequiredTRVPercentOpen", "content/OTRadioLink/utility/OTRadValve_ValveMotorDirectV1.h:ValveMotorDirectV1", "content/OTRadioLink/utility/OTRadValve_CurrentSenseValveMotorDirect.cpp:poll"]}
{"id": "C251", "title": "A schedule after any history of calls, in RAM or EEPROM", "statement": "After any sequence of set and clear calls on the heating schedules, however many there are, each schedule is what its last accepted setting said (start: pre-warm period before the requested time rounded down to six minutes; end: the on time after it) or unset if it was cleared or never set; \"on now\" is exactly being within one of those periods, across midnight included. A schedule kept in RAM and one kept in EEPROM answer every question alike and drive the valve mode alike after the same calls.", "quantifier": "every number of schedules, initial RAM contents, sequence of calls, minute of the day and on time up to 255 minutes", "why_tests_cant": "unit tests try a few settings of one schedule; the claim is over call histories, slot counts and all minutes of the day", "anchors": ["content/OTRadioLink/utility/OTRadValve_SimpleValveSchedule.h:SimpleValveScheduleMock", "content/OTRadioLink/utility/OTRadValve_SimpleValveSchedule.cpp:isAnyScheduleOnWARMNow"]}
{"id": "C252", "title": "The mean temperature the filter works with", "statement": "The mean of the recent temperature readings is their average to the nearest sixteenth of a degree, so equal readings have that reading as their mean, and warmer readings never lower it.", "quantifier": "every list of recent readings", "why_tests_cant": "the code carries a note that it still needs tests; the claim is over all readings, negative ones included", "anchors": ["content/OTRadioLink/utility/OTRadValve_ModelledRadValveState.h:smallIntMean", "content/OTRadioLink/utility/OTRadValve_ModelledRadValveState.h:getSmoothedRecent"]}
{"id": "C253", "title": "Turning the dial sets the mode; the valve answers with a wiggle", "statement": "A read that looks at the dial after it was turned: to the top starts BAKE for its full time; up puts the valve in WARM; down, but not to the frost end, ends BAKE and leaves WARM or FROST as it was; not turned, the mode is left alone. A significant use of the controls is answered by exactly one wiggle of the valve at the next read if the valve is in normal running, and the valve is never wiggled otherwise.", "quantifier": "every state of the controls after the first reading of the dial, every dial reading and other input, no button interrupt within the read", "why_tests_cant": "the mode depends on previous dial position, noise filter, mode and timers together", "anchors": ["content/OTRadioLink/utility/OTRadValve_ActuatorPhysicalUI.cpp:ModeButtonAndPotActuatorPhysicalUI::read", "content/OTRadioLink/utility/OTRadValve_ActuatorPhysicalUI.h:setWarmModeFromManualUI", "content/OTRadioLink/utility/OTRadValve_ActuatorPhysicalUI.h:userOpFeedback", "content/OTRadioLink/utility/OTV0P2BASE_SensorTemperaturePot.h:read"]}
{"id": "C254", "title": "What the user does with the dial or the button decides the target at once", "statement": "When a read of the controls finds the dial turned, the target temperature computed straight after is, whatever the schedule, the light, the statistics, the setback rules and how long the room has been vacant: turned up within the normal range (not baking), exactly the temperature the dial shows; turned into the top end zone, that temperature with the BAKE uplift, limited to the maximum; turned down within the normal range in WARM or BAKE, exactly the temperature the dial shows; turned down into the frost end zone from WARM or BAKE, exactly the frost temperature even if a schedule comes on soon. A press of the button outside the frost end zone makes the target the WARM temperature with the BAKE uplift. After being turned up and then left alone, the dial temperature stays the target, with no setback, for at least 49 minutes.", "quantifier": "every state of the controls after the first reading of the dial, every dial reading, every sensor, schedule and statistics state, every later run of reads and minutes in which the dial is left alone", "why_tests_cant": "it joins the dial filter, the mode, the occupancy tracker and the target computation over arbitrary histories", "anchors": ["content/OTRadioLink/utility/OTRadValve_ActuatorPhysicalUI.cpp:ModeButtonAndPotActuatorPhysicalUI::read", "content/OTRadioLink/utility/OTRadValve_ModelledRadValve.h:computeTargetTemp", "content/OTRadioLink/utility/OTV0P2BASE_SensorTemperaturePot.h:read", "content/OTRadioLink/utility/OTV0P2BASE_SensorOccupancy.cpp:read"]}
{"id": "C255", "title": "Turning the dial up in a cold room opens the valve", "statement": "The dial is turned up within its normal range and then left alone. If at every reading in the next minutes (up to 49), and at the readings the valve remembers, the room is more than 7.5 C colder than the dial now shows, then whatever the schedule, the occupancy history, the light, the humidity and the statistics, the valve, from any position and state, is open to its limit: after 11 readings outside glacial operation, and in any case after 11 plus one per percent it has to move. Once it is open to its limit (at least 50%, and at least the minimum really open), each further reading calls for heat exactly if the room, to the nearest degree, is colder than the dial shows, and reports no setback.", "quantifier": "every state of the controls after the first reading of the dial and of the valve, every interleaving of reads and minutes, every sensor, schedule and statistics history", "why_tests_cant": "it joins dial filter, mode, occupancy countdown, target computation and the valve state machine over arbitrary histories", "anchors": ["content/OTRadioLink/utility/OTRadValve_ActuatorPhysicalUI.cpp:ModeButtonAndPotActuatorPhysicalUI::read", "content/OTRadioLink/utility/OTRadValve_ModelledRadValve.h:computeTargetTemp", "content/OTRadioLink/utility/OTRadValve_ModelledRadValve.cpp:computeRequiredTRVPercentOpen", "content/OTRadioLink/utility/OTV0P2BASE_SensorTemperaturePot.h:read"]}
{"id": "C256", "title": "Turning the dial down below the room temperature ends the call for heat", "statement": "The valve is in WARM or BAKE, by hand or by schedule. If the dial is turned down, within its normal range to a temperature the room (to the nearest degree) has already reached, or into the frost end zone in a room not below the frost temperature, then at the very next reading, whatever the schedule, occupancy, light and statistics, and whatever the position and state of the valve, it does not call for heat, and any BAKE is over.", "quantifier": "every state of the controls after the first reading of the dial and of the valve, every sensor, schedule and statistics state", "why_tests_cant": "it joins dial filter, mode, occupancy, target computation and valve over all their states", "anchors": ["content/OTRadioLink/utility/OTRadValve_ActuatorPhysicalUI.cpp:ModeButtonAndPotActuatorPhysicalUI::read", "content/OTRadioLink/utility/OTRadValve_ModelledRadValve.h:computeTargetTemp", "content/OTRadioLink/utility/OTRadValve_ModelledRadValve.h:computeCallForHeat"]}
{"id": "C257", "title": "Pressing the button in a cold room opens the valve and calls for heat", "statement": "The button of the kind that starts BAKE is pressed, with the dial, if any, not in its frost end zone, and nobody else changes the mode. If at every reading in the next minutes (up to 30), and at the readings the valve remembers, the room is more than 7.5 C below the BAKE target, then whatever the mode before, the schedule, occupancy, light and statistics, the valve, from any position and state, is open to its limit: after 11 readings outside glacial operation, and in any case after 11 plus one per percent it has to move. Once so open (at least 50%, at least the minimum really open), a further reading within the 30 finds it still in BAKE and calling for heat if the room is colder than the BAKE target.", "quantifier": "every state of the controls and of the valve, every sensor, schedule and statistics history", "why_tests_cant": "it joins the button, the mode countdown, the target computation and the valve state machine over arbitrary histories", "anchors": ["content/OTRadioLink/utility/OTRadValve_ActuatorPhysicalUI.h:handleInterruptSimple", "content/OTRadioLink/utility/OTRadValve_ModelledRadValve.h:computeTargetTemp", "content/OTRadioLink/utility/OTRadValve_ValveMode.h:startBake", "content/OTRadioLink/utility/OTRadValve_ModelledRadValve.cpp:computeRequiredTRVPercentOpen"]}
