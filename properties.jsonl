{"id": "C01", "title": "Requester/completer IDs survive the 16-bit encoding", "statement": "int(PcieId(bus,dev,fn)) is a 16-bit number from which PcieId.from_int recovers exactly the same bus, device and function whenever they fit 8/5/3 bits; conversely from_int followed by int is the identity on all 16-bit values, so two distinct IDs never share an encoding.", "quantifier": "every bus < 256, device < 32, function < 8 and every 16-bit integer", "why_tests_cant": "the ID space has 65536 points and every routing decision relies on all of them being distinct", "anchors": ["tb/pcie.py:PcieId.from_int", "tb/pcie.py:PcieId.__int__"]}
{"id": "C02", "title": "Byte-masked register update touches exactly the selected bytes and bits", "statement": "byte_mask_update(old, mask, new, bitmask) returns a value whose bit i equals bit i of new when byte lane i/8 is selected in mask and bit i is set in bitmask, and bit i of old otherwise.", "quantifier": "every old and new value, every lane mask of any width, every bit mask including the default -1", "why_tests_cant": "values and masks are unbounded integers; the loop runs once per mask bit", "anchors": ["tb/pcie.py:byte_mask_update"]}
{"id": "C03", "title": "Address alignment returns the least aligned address", "statement": "align(val, 2^k-1) is the smallest multiple of 2^k that is >= val.", "quantifier": "every val and k", "why_tests_cant": "unbounded integers", "anchors": ["tb/pcie.py:align"]}
{"id": "C04", "title": "Byte enables select exactly the requested bytes", "statement": "After set_be(addr, length) the TLP's DWORD address, DWORD length and first/last byte enables enable precisely the bytes addr..addr+length-1 and no other byte, the address is DWORD aligned, the last byte enable is 0 exactly for one-DWORD requests, and both enables fit in 4 bits.", "quantifier": "every byte address and every length >= 1", "why_tests_cant": "the byte pattern depends on both ends modulo 4 and unbounded lengths; a single missed case corrupts a neighbouring byte", "anchors": ["tb/pcie.py:TLP.set_be"]}
{"id": "C05", "title": "Byte count and offset are recovered from the byte enables", "statement": "For a request prepared with set_be(addr, length), get_be_byte_count returns length and address+get_first_be_offset returns addr.", "quantifier": "every byte address and every length >= 1", "why_tests_cant": "unbounded lengths, all alignments", "anchors": ["tb/pcie.py:TLP.get_be_byte_count", "tb/pcie.py:TLP.get_first_be_offset", "tb/pcie.py:TLP.get_last_be_offset"]}
{"id": "C06", "title": "Lower address of a request is the low seven bits of its first byte", "statement": "For a request prepared with set_be(addr, length), get_lower_address returns addr mod 128 (the value a completer must place in the Lower Address field).", "quantifier": "every byte address and every length >= 1", "why_tests_cant": "all alignments of an unbounded address", "anchors": ["tb/pcie.py:TLP.get_lower_address"]}
{"id": "C07", "title": "Payload bytes survive conversion to DWORDs", "statement": "After set_be_data(addr, data), the DWORD payload has exactly the advertised length, get_data() is the payload padded with zero bytes to DWORD boundaries at both ends, and the bytes at the enabled positions are exactly data, in order.", "quantifier": "every address and every byte string", "why_tests_cant": "arbitrary-length data", "anchors": ["tb/pcie.py:TLP.set_be_data", "tb/pcie.py:TLP.set_data", "tb/pcie.py:TLP.get_data"]}
{"id": "C08", "title": "Completion TLPs survive pack and unpack", "statement": "For every well-formed completion (with or without data, locked or not), unpack(pack(t)) equals t in every field that TLP.__eq__ compares, including byte count 4096 and length 1024 which are encoded as zero.", "quantifier": "every completion TLP with fields in their architectural ranges and payload of any legal length", "why_tests_cant": "the field space is astronomically large and two encodings wrap to zero", "anchors": ["tb/pcie.py:TLP.pack", "tb/pcie.py:TLP.unpack"]}
{"id": "C09", "title": "Request TLPs survive pack and unpack", "statement": "For every well-formed memory, IO or configuration request, unpack(pack(t)) equals t.", "quantifier": "every request TLP with fields in their architectural ranges", "why_tests_cant": "field space too large; individual formats take different branches", "anchors": ["tb/pcie.py:TLP.pack", "tb/pcie.py:TLP.unpack"]}
{"id": "C10", "title": "A posted write is split so that every byte is written exactly once", "statement": "mem_write(addr, data) emits TLPs which, in order, cover addr..addr+len-1 contiguously without gap or overlap, carry the data bytes in order, never carry more than the maximum payload size, never cross a 4 KB boundary, pass TLP.check, use 3DW format exactly when the address fits 32 bits, and applying their enabled bytes to any memory gives the same result as writing data at addr.", "quantifier": "every address, every byte string, every max payload setting", "why_tests_cant": "the number of TLPs is unbounded and split points depend on address, length and setting", "anchors": ["tb/pcie.py:Function.mem_write", "tb/pcie.py:RootComplex.mem_write"]}
{"id": "C11", "title": "A memory read returns the completer's bytes", "statement": "RootComplex.mem_read(addr, length) against a memory completer that splits completions by its maximum payload size returns exactly the bytes stored at addr..addr+length-1; each request stays within the maximum read request size and within a 4 KB page.", "quantifier": "every memory content, address, length, maximum read request size and completer payload size", "why_tests_cant": "two independent splitting algorithms and byte-enable trimming must agree for all alignments and sizes", "anchors": ["tb/pcie.py:RootComplex.mem_read", "tb/pcie.py:MemoryEndpoint.handle_mem_read_tlp", "tb/pcie.py:TLP.set_be"]}
{"id": "C12", "title": "A device-initiated memory read asks only for its own chunk", "statement": "Each request TLP emitted by Function.mem_read(addr, length) covers at most its chunk: it stays within the maximum read request size and does not cross a 4 KB boundary (passes TLP.check).", "quantifier": "every address, length and maximum read request size", "why_tests_cant": "depends on the number of chunks", "anchors": ["tb/pcie.py:Function.mem_read", "tb/pcie.py:TLP.check"]}
{"id": "C13", "title": "Completions for one read are consecutive, bounded and exactly cover the request", "statement": "The completions a memory completer generates for a read request have payloads whose concatenation is the DWORD-expanded region, each payload is at most the maximum payload size, every completion but the first starts and every completion but the last ends on a 128-byte boundary, byte_count always equals the bytes still to be delivered, and lower_address equals the low 7 bits of the first delivered byte.", "quantifier": "every address, length 1..1024 DW, byte enables and payload setting", "why_tests_cant": "arbitrary split counts", "anchors": ["tb/pcie.py:MemoryEndpoint.handle_mem_read_tlp", "tb/pcie.py:RootComplex.handle_mem_read_tlp"]}
{"id": "C14", "title": "A memory write TLP changes exactly the enabled bytes", "statement": "Handling a memory write at a memory completer changes exactly the bytes of the target whose byte enable is set, to the corresponding payload bytes, even for sparse byte enables, and leaves all other memory unchanged.", "quantifier": "every memory, address, payload and byte-enable pair", "why_tests_cant": "byte-enable patterns times payload lengths", "anchors": ["tb/pcie.py:MemoryEndpoint.handle_mem_write_tlp", "tb/pcie.py:RootComplex.handle_mem_write_tlp"]}
{"id": "C15", "title": "Capabilities never overlap in configuration space", "statement": "After any sequence of register calls on a capability list, the register ranges of the registered capabilities are pairwise disjoint.", "quantifier": "every sequence of registrations, with and without requested offsets, including re-registration", "why_tests_cant": "histories of arbitrary length; bumping re-enters registration", "anchors": ["tb/pcie.py:PcieCapList.register"]}
{"id": "C16", "title": "The capability chain visits every capability", "statement": "Following next pointers from the first capability visits every registered capability exactly once in increasing offset order and ends with a null pointer; lookup by register returns the capability whose range contains it.", "quantifier": "every sequence of registrations", "why_tests_cant": "histories of arbitrary length", "anchors": ["tb/pcie.py:PcieCapList.register", "tb/pcie.py:PcieCapList.find_by_reg", "tb/pcie.py:PcieCap.read_register"]}
{"id": "C17", "title": "Configuration writes change only writable bits", "statement": "After any configuration write with any byte mask, every read-only bit of the type 0 header keeps its value, read/write bits take the written value exactly in the enabled lanes, and write-one-to-clear status bits are cleared exactly where a one was written and the lane enabled.", "quantifier": "every header state, register, data and mask", "why_tests_cant": "2^36 writes per register per state", "anchors": ["tb/pcie.py:Function.write_config_register", "tb/pcie.py:Function.read_config_register", "tb/pcie.py:Endpoint.write_config_register"]}
{"id": "C18", "title": "BAR sizing and decoding agree", "statement": "After configure_bar(idx, size) and the write-all-ones/read-back protocol, software computes exactly the configured size; after a base address is programmed, match_bar accepts an address iff it lies in [base, base+size) of that BAR and memory/IO decoding is enabled for it, and returns its offset from base.", "quantifier": "every BAR index, power-of-two size, base and address", "why_tests_cant": "64-bit address space", "anchors": ["tb/pcie.py:Function.configure_bar", "tb/pcie.py:Function.match_bar", "tb/pcie.py:Endpoint.write_config_register"]}
{"id": "C19", "title": "MSI messages stay in the vector range granted", "statement": "issue_msi_interrupt(n) sends nothing unless MSI is enabled and n is below the number of enabled vectors; otherwise it writes one DWORD to the programmed message address whose value is the message data with the low log2(vectors) bits replaced by n.", "quantifier": "every MSI register state and n", "why_tests_cant": "all register states", "anchors": ["tb/pcie.py:MSICapability.issue_msi_interrupt"]}
{"id": "C20", "title": "Regions allocated from the root complex do not overlap", "statement": "Any sequence of alloc_region calls yields pairwise disjoint address ranges, each aligned to its size rounded up to a power of two.", "quantifier": "every sequence of sizes", "why_tests_cant": "allocation histories of arbitrary length", "anchors": ["tb/pcie.py:RootComplex.alloc_region", "tb/pcie.py:RootComplex.alloc_io_region", "tb/pcie.py:RootComplex.find_region"]}
{"id": "C21", "title": "Enumeration assigns disjoint, aligned BAR windows inside the bridge windows", "statement": "Enumeration of a bus assigns each BAR an address that is a multiple of its size, all assigned ranges are pairwise disjoint, and they lie within the segment window it reports.", "quantifier": "every list of devices and BAR sizes", "why_tests_cant": "topologies of arbitrary size", "anchors": ["tb/pcie.py:RootComplex.enumerate_segment"]}
{"id": "C22", "title": "Enumeration assigns nested, disjoint bus ranges", "statement": "Bus numbers assigned to bridges during enumeration are unique, every bridge's secondary..subordinate range contains exactly the buses below it, and sibling ranges are disjoint.", "quantifier": "every tree of bridges", "why_tests_cant": "trees of arbitrary shape", "anchors": ["tb/pcie.py:RootComplex.enumerate_segment", "tb/pcie.py:RootComplex.enumerate"]}
{"id": "C23", "title": "Bridge forwards a request downstream iff its target lies behind the bridge", "statement": "A bridge receiving a TLP from upstream sends memory, prefetchable memory, IO and ID-routed TLPs downstream exactly when the address or bus number lies in the corresponding programmed window, converts type 1 to type 0 configuration requests exactly on its secondary bus, and otherwise answers with an unsupported-request completion.", "quantifier": "every window programming and TLP", "why_tests_cant": "windows and addresses are 64 bit", "anchors": ["tb/pcie.py:Bridge.upstream_recv", "tb/pcie.py:Bridge.downstream_recv"]}
{"id": "C24", "title": "A device answers each function number with at most one function", "statement": "append_function/add_function keep function numbers unique and below 8 and a configuration request reaches the function iff device and function numbers match.", "quantifier": "every sequence of additions", "why_tests_cant": "histories", "anchors": ["tb/pcie.py:Device.next_free_function_number", "tb/pcie.py:Device.add_function", "tb/pcie.py:Device.upstream_recv"]}
{"id": "C25", "title": "A tag is never reused while its request is outstanding", "statement": "get_free_tag returns a tag that no outstanding request of that function uses, and None only when all are in use.", "quantifier": "every interleaving of issue and completion", "why_tests_cant": "all schedules", "anchors": ["tb/pcie.py:Function.get_free_tag", "tb/pcie.py:RootComplex.get_free_tag"]}
{"id": "C26", "title": "Per-byte parity detects every single-bit error", "statement": "dword_parity computes for each byte the XOR of its bits; check_parity accepts a frame produced by update_parity and rejects it after any single bit of data or parity is flipped.", "quantifier": "every data word, every frame length, every flipped bit", "why_tests_cant": "2^32 words", "anchors": ["tb/pcie_if.py:dword_parity", "tb/pcie_if.py:PcieIfFrame.update_parity", "tb/pcie_us.py:dword_parity"]}
{"id": "C27", "title": "Header/data framing of TLPs on the generic interface is lossless", "statement": "Sending any sequence of frames through PcieIfSource over any number of segments of any width, with any pause pattern on either side, delivers to PcieIfSink exactly the same frames in the same order with the same header, data, BAR, function, sequence number and error.", "quantifier": "every frame list, segment count, segment width, and every source/sink pause schedule", "why_tests_cant": "all schedules and packings", "anchors": ["tb/pcie_if.py:PcieIfSource", "tb/pcie_if.py:PcieIfSink"]}
{"id": "C28", "title": "Segmented RAM behaves as a flat byte memory", "statement": "Writing data at a byte address through the segmented RAM master and then reading any range returns the flat-memory contents: the issued per-segment operations write exactly the bytes addr..addr+len-1 and reads reassemble bytes in order.", "quantifier": "every segment count, segment width, address, data and range", "why_tests_cant": "geometry and length unbounded", "anchors": ["tb/dma_psdp_ram.py:PsdpRamMasterWrite._process_write", "tb/dma_psdp_ram.py:PsdpRamMasterRead._process_read", "tb/dma_psdp_ram.py:PsdpRamWrite._run", "tb/dma_psdp_ram.py:PsdpRamRead._run"]}
{"id": "C29", "title": "UltraScale descriptors carry TLPs losslessly", "statement": "For each of the CQ, CC, RQ and RC interfaces, unpacking the packed frame recovers all TLP fields the descriptor format carries, and the byte-enable and parity checks of unpack accept every frame produced by pack.", "quantifier": "every TLP accepted by the interface with in-range fields", "why_tests_cant": "field space", "anchors": ["tb/pcie_us.py:TLP_us.pack_us_cq", "tb/pcie_us.py:TLP_us.unpack_us_cq", "tb/pcie_us.py:TLP_us.pack_us_cc", "tb/pcie_us.py:TLP_us.pack_us_rq", "tb/pcie_us.py:TLP_us.pack_us_rc"]}
{"id": "C30", "title": "Priority encoder selects the highest-priority request", "statement": "output_valid is high iff some input is high, output_encoded is the index of the lowest (or highest, per parameter) set input, and output_unencoded is its one-hot code.", "quantifier": "every width and every input vector", "why_tests_cant": "2^WIDTH inputs for every width", "anchors": ["rtl/priority_encoder.v:priority_encoder"]}
{"id": "C31", "title": "Arbiter grants are one-hot, requested and held", "statement": "At every cycle at most one grant is high, grant_encoded/grant_valid agree with grant, a new grant is only given to a requesting port, and with ARB_BLOCK a grant persists until its release condition (request drop or acknowledge).", "quantifier": "every port count, parameter choice and input history", "why_tests_cant": "all input histories", "anchors": ["rtl/arbiter.v:arbiter"]}
{"id": "C32", "title": "Round-robin arbitration starves no requester", "statement": "With round-robin arbitration, a port that keeps requesting is granted after at most PORTS-1 grants to other ports.", "quantifier": "every port count and input history", "why_tests_cant": "liveness over unbounded histories", "anchors": ["rtl/arbiter.v:arbiter"]}
{"id": "C33", "title": "Pulse merging loses no pulse while the counter has room", "statement": "The number of output pulses plus the current pending count equals the number of input pulses received, as long as the counter has not saturated; an output pulse is emitted in every cycle in which the count is nonzero.", "quantifier": "every input history, input width and counter width", "why_tests_cant": "unbounded histories", "anchors": ["rtl/pulse_merge.v:pulse_merge"]}
{"id": "C34", "title": "Flow-control credit counter reports the credits each TLP consumes", "statement": "For each TLP header presented, the posted/non-posted/completion header count is 1 in exactly the TLP's class and the data count is ceil(length/4) for TLPs with payload (0 otherwise), length field 0 meaning 1024.", "quantifier": "every TLP header", "why_tests_cant": "2^128 headers", "anchors": ["rtl/pcie_tlp_fc_count.v:pcie_tlp_fc_count"]}
{"id": "C35", "title": "AXI stream arbitrated mux preserves frames", "statement": "The words accepted from each input appear at the output in order exactly once, and no word of another input appears between the first and last word of a frame.", "quantifier": "every port count, input history and output back-pressure history", "why_tests_cant": "all schedules", "anchors": ["rtl/axis_arb_mux.v:axis_arb_mux"]}
{"id": "C36", "title": "DMA descriptor mux returns each status to the port that issued the descriptor", "statement": "Every descriptor accepted on port i leaves the mux once, unmodified except for the tag (and optional RAM select) extended with i, in per-port order, and a status with that tag is delivered to port i only, with the original tag.", "quantifier": "every port count, width, history and back-pressure", "why_tests_cant": "all schedules", "anchors": ["rtl/dma_if_desc_mux.v:dma_if_desc_mux"]}
{"id": "C37", "title": "RAM read demux returns responses in command order", "statement": "Commands accepted on a segment are forwarded once to the selected port in order, and responses are returned to the requester in the order of the commands regardless of relative port latencies.", "quantifier": "every history of commands, port responses and back-pressure", "why_tests_cant": "all schedules", "anchors": ["rtl/dma_ram_demux_rd.v:dma_ram_demux_rd"]}
{"id": "C38", "title": "RAM write demux reports completion once per command, in order", "statement": "Each accepted write command is forwarded once to the selected port, and ctrl_wr_done is pulsed exactly once per completed command, in command order.", "quantifier": "every history", "why_tests_cant": "all schedules", "anchors": ["rtl/dma_ram_demux_wr.v:dma_ram_demux_wr"]}
{"id": "C39", "title": "Dual-port segmented RAM read pipeline is lossless and in order", "statement": "Every accepted read command produces exactly one response, in order, carrying the word stored at acceptance time, under arbitrary response back-pressure; writes update exactly the enabled bytes.", "quantifier": "every PIPELINE depth, history and back-pressure", "why_tests_cant": "all schedules", "anchors": ["rtl/dma_psdpram.v:dma_psdpram"]}
{"id": "C40", "title": "TLP write DMA segmentation is exact", "statement": "The TLPs generated for a write descriptor cover pcie_addr..pcie_addr+len-1 exactly once, in order, never exceed the maximum payload size, never cross a 4 KB boundary, and carry DWORD count and byte enables selecting exactly these bytes; a zero-length descriptor generates one TLP with no enabled byte.", "quantifier": "every descriptor address/length and max payload setting", "why_tests_cant": "64-bit addresses, all lengths", "anchors": ["rtl/dma_if_pcie_wr.v:dma_if_pcie_wr"]}
{"id": "C41", "title": "DMA write descriptor completion is reported once, in order, after transmission", "statement": "Each accepted write descriptor yields exactly one status with its tag, in acceptance order, and only after all of its TLPs have been handed to the transmit interface.", "quantifier": "every history of descriptors, back-pressure and sequence-number returns", "why_tests_cant": "all schedules", "anchors": ["rtl/dma_if_pcie_wr.v:dma_if_pcie_wr"]}
{"id": "C42", "title": "Interrupt rate limiting neither loses nor bursts interrupts", "statement": "After an interrupt for a source is emitted, no second interrupt for it is emitted before the minimum interval elapses, and a request received in the meantime is emitted later.", "quantifier": "every history of requests and readiness", "why_tests_cant": "unbounded histories", "anchors": ["rtl/irq_rate_limit.v:irq_rate_limit"]}
{"id": "C43", "title": "MSI-X pending bits track masked vectors", "statement": "An interrupt requested while its vector is masked sets exactly its own pending bit in the PBA and is sent when the vector is unmasked.", "quantifier": "every vector index and history", "why_tests_cant": "all vector indices and histories", "anchors": ["rtl/pcie_msix.v:pcie_msix"]}
{"id": "C44", "title": "Flow control credit tracking never exceeds the limit", "statement": "The available-credit output stays within [0, cap] and reflects credits consumed and returned.", "quantifier": "every history", "why_tests_cant": "unbounded histories", "anchors": ["rtl/pcie_ptile_fc_counter.v:pcie_ptile_fc_counter"]}
{"id": "C45", "title": "Capability register writes stay inside their register", "statement": "A configuration write to a register of a capability (power management, MSI, PCI Express, MSI-X) changes only the read/write and write-one-to-clear bits the specification defines for that register, only in the enabled byte lanes, and no other register anywhere in the configuration space; every register of a capability can be read.", "quantifier": "every configuration state, capability placement, register, data and byte mask", "why_tests_cant": "4096 registers times 2^36 writes per state", "anchors": ["tb/pcie.py:PcieCapability.write_pcie_cap_register", "tb/pcie.py:MSICapability.write_msi_cap_register", "tb/pcie.py:MSIXCapability.write_msix_cap_register", "tb/pcie.py:PcieCapList.write_register", "tb/pcie.py:Function.write_config_register"]}
{"id": "C46", "title": "PCI Express capability reports the configured link and device parameters", "statement": "Reading the PCI Express capability returns the configured payload sizes, read request size, link speed, link width, ASPM support, exit latencies and port number in the bit positions of the specification.", "quantifier": "every attribute value", "why_tests_cant": "all combinations of about 150 attributes", "anchors": ["tb/pcie.py:PcieCapability.read_pcie_cap_register"]}
{"id": "C47", "title": "Registered extended capabilities are visible to configuration reads", "statement": "After registering extended capabilities, walking the list with configuration reads from the start of extended configuration space (byte 0x100) visits each of them exactly once with its ID.", "quantifier": "every sequence of registrations", "why_tests_cant": "all histories of registrations", "anchors": ["tb/pcie.py:PcieExtCapList", "tb/pcie.py:Function.read_config_register", "tb/pcie.py:Function.register_ext_capability"]}
{"id": "C48", "title": "Bridge configuration header follows the type 1 layout", "statement": "A configuration write to a bridge changes exactly the writable bits of the addressed register under enabled byte lanes (write-1-to-clear for secondary status), and nothing else; windows keep 4 KiB / 1 MiB granularity.", "quantifier": "every register state, register number, data and byte enables", "why_tests_cant": "2^32 data values times 16 byte enables times all register states", "anchors": ["tb/pcie.py:Bridge.read_config_register", "tb/pcie.py:Bridge.write_config_register"]}
{"id": "C49", "title": "The MSI-X table is a memory on AXI lite", "statement": "Every AXI lite read of the MSI-X table is answered once, in order, with the bytes as the writes accepted before it have left them; every write is answered once and changes exactly the enabled bytes at its address; reads of the pending bit array return the pending bits; a held read or write is accepted within three cycles, however busy the other channel is.", "quantifier": "every data bus width up to 64 bits, every table size, every master that holds its requests, every history and back pressure", "why_tests_cant": "interleavings of reads, writes and back pressure are unbounded", "anchors": ["rtl/pcie_msix.v:pcie_msix"]}
{"id": "C50", "title": "Write DMA sequence numbers identify their TLP", "statement": "Every transfer of the n-th write TLP carries sequence number n modulo the operation table size, and no two TLPs that wait for their sequence number share one, so a returned number identifies one TLP.", "quantifier": "every history of descriptors, RAM responses, back-pressure and sequence-number returns", "why_tests_cant": "wrap-around of the table in all interleavings", "anchors": ["rtl/dma_if_pcie_wr.v:dma_if_pcie_wr"]}
{"id": "C51", "title": "Write DMA respects the transmit limit", "statement": "With sequence numbers enabled, the number of write TLPs that have been started and whose sequence number has not come back never exceeds TX_LIMIT.", "quantifier": "every TX_LIMIT and every history", "why_tests_cant": "the worst case depends on the exact interleaving of transmission and returns", "anchors": ["rtl/dma_if_pcie_wr.v:dma_if_pcie_wr", "rtl/dma_if_pcie_wr.v:active_tx_count_reg"]}
{"id": "C52", "title": "Demultiplexers deliver whole packets to the selected output", "statement": "Every word of every accepted packet of an UltraScale completer request or requester completion stream comes out, once and in order, at the output that the controls selected for its packet; dropped packets disappear completely; at most a fixed small number of words is inside at any time.", "quantifier": "every number of outputs, every word width and content, every history of packets, controls and back-pressure", "why_tests_cant": "the skid register, the drop path and the frame tracking interact over unbounded histories", "anchors": ["rtl/pcie_us_axis_rc_demux.v:pcie_us_axis_rc_demux", "rtl/pcie_us_axis_cq_demux.v:pcie_us_axis_cq_demux"]}
{"id": "C53", "title": "MSI messages have causes", "statement": "An MSI shim only asks for messages of existing vectors, one at a time, and never for more messages of a vector than its interrupt input had rising edges; a request is held unchanged until the hard IP core answers it.", "quantifier": "every number of vectors, every history of interrupts, configuration and answers", "why_tests_cant": "interleavings of edges, arbitration and answers are unbounded", "anchors": ["rtl/pcie_us_msi.v:pcie_us_msi", "rtl/pcie_s10_msi.v:pcie_s10_msi"]}
{"id": "C54", "title": "Every MSI interrupt is signalled", "statement": "After a rising edge of an interrupt input whose vector is enabled, a new message of that vector is requested within a bounded time, however busy the other vectors are, if the hard IP core answers messages in bounded time.", "quantifier": "every number of vectors, every answer time, every history", "why_tests_cant": "liveness and fairness over unbounded histories", "anchors": ["rtl/pcie_us_msi.v:pcie_us_msi", "rtl/pcie_s10_msi.v:pcie_s10_msi", "rtl/arbiter.v:arbiter"]}
{"id": "C55", "title": "Masked MSI vectors are silent", "statement": "A message is only requested for a vector that the configuration (MSI enable, mask, multiple message enable) allowed at most three cycles before.", "quantifier": "every history of interrupts and configuration changes", "why_tests_cant": "the configuration can change in every cycle of an unbounded history", "anchors": ["rtl/pcie_us_msi.v:pcie_us_msi", "rtl/pcie_s10_msi.v:pcie_s10_msi"]}
{"id": "C56", "title": "The stream DMA source sends the RAM contents", "statement": "The DMA client for a stream source sends, for each descriptor accepted and in the order of acceptance, one packet with exactly the bytes of RAM that the descriptor names, packed without gaps in words of the stream width, with only the final word marked last and with the identifiers of the descriptor.", "quantifier": "every supported width of stream, RAM segment count and width, every history of descriptors and of delays of RAM and receiver", "why_tests_cant": "the read side, the RAM segments and the output FIFO run ahead of each other by amounts that depend on every delay in the history", "anchors": ["rtl/dma_client_axis_source.v"]}
{"id": "C57", "title": "Stream DMA source statuses", "statement": "The DMA client for a stream source gives exactly one status per descriptor, with its tag and in order; when the status has been given, no read for the descriptor is outstanding, so its RAM may be reused; and every descriptor is finished within a bounded number of cycles when RAM and receiver stop delaying.", "quantifier": "every supported configuration, every history of descriptors and delays", "why_tests_cant": "absence of late reads and of deadlock must hold after every possible history", "anchors": ["rtl/dma_client_axis_source.v"]}
{"id": "C58", "title": "The stream DMA sink writes the packet to the RAM", "statement": "The DMA client for a stream sink writes, for each descriptor accepted and the packet that goes with it, exactly the bytes of the packet that are kept and that are within the length of the descriptor, each at its address and in order on every RAM segment; the excess of a packet that is too long is dropped and the next packet goes with the next descriptor.", "quantifier": "every supported width of stream, RAM segment count and width, every history of descriptors, packets and delays of the RAM segments", "why_tests_cant": "the segments take their commands at different times, and the FIFOs must not overflow for any combination of delays", "anchors": ["rtl/dma_client_axis_sink.v"]}
{"id": "C59", "title": "Stream DMA sink statuses", "statement": "The DMA client for a stream sink gives exactly one status per descriptor, in order, with its tag, the identifiers of the word that completes it and the number of bytes received; when the status is given, the RAM has reported all writes for the descriptor as done; and when the RAM stops delaying, everything taken is written and reported within a bounded number of cycles and the module accepts what comes next.", "quantifier": "every supported configuration, every history of descriptors, packets and delays", "why_tests_cant": "a status that comes before one of the writes on another segment is done shows only for particular delays; absence of deadlock concerns every history", "anchors": ["rtl/dma_client_axis_sink.v"]}
{"id": "C60", "title": "The read DMA requests exactly the bytes of its descriptors", "statement": "The PCIe DMA read interface sends, for each read descriptor accepted, memory read requests that together ask for exactly the bytes of the descriptor, in order and each once; each request is a well-formed memory read with the right requester ID, asks for at most the maximum read request size and does not cross a 4 KB boundary.", "quantifier": "every supported width, every history of descriptors, completions and handshakes", "why_tests_cant": "the boundary cases are combinations of address, length and maximum request size, of which there are far too many to enumerate", "anchors": ["rtl/dma_if_pcie_rd.v"]}
{"id": "C61", "title": "Tags of outstanding read requests", "statement": "At any time the read requests of the PCIe DMA read interface that are outstanding, with the one it is offering, have different tags, all below 2^PCIE_TAG_WIDTH, and below 32 as long as extended tags are not enabled.", "quantifier": "every supported configuration, every history of descriptors, completions (split, delayed, in error, unexpected) and handshakes", "why_tests_cant": "a tag that is freed too early or twice is reused only many requests later, for particular orders of completions", "anchors": ["rtl/dma_if_pcie_rd.v"]}
{"id": "C62", "title": "Errors reported by the read DMA", "statement": "The PCIe DMA read interface reports a correctable error exactly when it receives a completion that matches no outstanding request, is poisoned or is not successful, and an uncorrectable error exactly when it receives a malformed completion or one that stands for a timeout.", "quantifier": "every supported configuration, every history of descriptors, completions and handshakes", "why_tests_cant": "whether a completion matches depends on the whole history of requests and completions", "anchors": ["rtl/dma_if_pcie_rd.v"]}
{"id": "C63", "title": "Read DMA writes what completions bring", "statement": "The PCIe DMA read interface writes exactly the bytes that completions for outstanding requests bring, each once and at the RAM address that belongs to its place in the descriptor, on every RAM segment in the order of arrival; bytes of other completions are not written.", "quantifier": "every supported configuration, every history of descriptors, completions (also split, out of order, or with errors) and RAM handshakes", "why_tests_cant": "data is shifted by any alignment, wraps around RAM rows and waits in FIFOs for any time; a wrong byte shows only for some combination of offsets, splits and back pressure", "anchors": ["rtl/dma_if_pcie_rd.v"]}
{"id": "C64", "title": "Read DMA statuses", "statement": "The PCIe DMA read interface gives exactly one status for each descriptor, with its tag, after all of its requests have been answered and all data they brought has been reported by the RAM as written; the status carries an error exactly if a request of the descriptor failed; and it comes within a bounded time.", "quantifier": "every supported configuration with at least 32 tags, every history of descriptors, completions and RAM delays", "why_tests_cant": "a status that is early, lost or doubled needs a particular interleaving of completions, slow RAM segments and reused tags; counters wrap only after many requests", "anchors": ["rtl/dma_if_pcie_rd.v"]}
{"id": "C65", "title": "The read DMA copies host memory", "statement": "If completions bring the contents of host memory, then when the PCIe DMA read interface gives a descriptor's status without error, every byte of the descriptor has been copied from its host address to its RAM address; and the interface never writes outside the RAM buffers of descriptors it has accepted, whatever completions bring.", "quantifier": "every supported configuration with at least 32 tags, every history of descriptors, completions (split, reordered, failed), RAM delays and host memory contents", "why_tests_cant": "combines request generation, tag reuse, completion splitting, alignment shifting and status tracking over unbounded histories; a test samples a few transfers", "anchors": ["rtl/dma_if_pcie_rd.v"]}
{"id": "C66", "title": "The minimal AXI lite master does the memory requests it receives, in order", "statement": "pcie_axil_master_minimal does exactly one AXI lite write for each one DWORD memory write it receives, with the address, data and byte enables of the request, and one AXI lite read for each one DWORD memory read, and no other; in the order of the requests, where a read is issued only when all earlier writes have been issued and the other way round; and what it offers on an interface stays unchanged until it is taken.", "quantifier": "every address width, every history of request headers (without TLP prefixes) and of ready and valid signals after a reset", "why_tests_cant": "requests, stalls of three AXI channels and of the completion interface interleave in unboundedly many ways", "anchors": ["rtl/pcie_axil_master_minimal.v"]}
{"id": "C67", "title": "The minimal AXI lite master returns the right completions", "statement": "For every non-posted request that pcie_axil_master_minimal receives it returns one completion, in the order of the requests, with the requester's ID, tag, traffic class and attributes: with the data of the AXI response, byte count and lower address according to the byte enables for a one DWORD read, completer abort for longer reads, unsupported request for others; and none for posted requests and completions. No completion overtakes the response to an earlier write.", "quantifier": "every history of requests, AXI responses and stalls after a reset, every completer ID", "why_tests_cant": "matching of responses and requests through a FIFO and a state machine over unbounded histories", "anchors": ["rtl/pcie_axil_master_minimal.v"]}
{"id": "C68", "title": "The minimal AXI lite master reports errors as they are", "statement": "The error outputs of pcie_axil_master_minimal are active for one cycle for each erroneous request received, and only then: uncorrectable for a posted request that it can not do, correctable for others.", "quantifier": "every history of requests and stalls after a reset", "why_tests_cant": "must hold in every cycle of every history", "anchors": ["rtl/pcie_axil_master_minimal.v"]}
{"id": "C69", "title": "The minimal AXI lite master never gets stuck", "statement": "When the other sides of its interfaces do not stall, pcie_axil_master_minimal sends the completions for all requests received so far within 39 cycles, and is ready for a further part of a request within 40 cycles, whatever happened before.", "quantifier": "every history after a reset", "why_tests_cant": "a liveness bound over every reachable state", "anchors": ["rtl/pcie_axil_master_minimal.v"]}
{"id": "C70", "title": "AXI master writes the bytes of received memory writes", "statement": "pcie_axi_master_wr performs received memory writes on AXI: at any time the bytes written by the AXI transfers done so far are an initial part of the bytes that the memory writes received ask for, in the order of the TLPs and of their bytes: each enabled byte of the payload at its address, no other byte, none skipped, none twice.", "quantifier": "all bus widths from 64 bits, address widths and burst lengths 1..256, all sequences of well-formed TLPs at the input (memory writes of any length, address and byte enables, and any other TLPs), all timings of input words and of the AXI ready signals, after a reset in any state", "why_tests_cant": "alignment, length, byte enables and back-pressure interact; data is shifted across words, and a wrong lane shows up only for certain offsets and stalls", "anchors": ["rtl/pcie_axi_master_wr.v: pcie_axi_master_wr, m_axi_wdata, m_axi_wstrb, m_axi_awaddr"]}
{"id": "C71", "title": "AXI master for writes obeys the AXI channels", "statement": "pcie_axi_master_wr offers one legal burst for a memory write: no longer than the configured maximum, not crossing a 4 KB boundary if the TLP does not, with exactly the announced number of data transfers and `last` on the last one only; and whatever is offered on the address or data channel stays unchanged until it is accepted.", "quantifier": "all configurations, all well-formed input sequences, all timings of the ready signals, after a reset in any state", "why_tests_cant": "an interconnect may stall each channel for any time; a changed address or a missing last transfer hangs it", "anchors": ["rtl/pcie_axi_master_wr.v: m_axi_awlen, m_axi_awvalid, m_axi_wlast, m_axi_wvalid"]}
{"id": "C72", "title": "AXI master for writes reports exactly the TLPs it cannot do", "statement": "pcie_axi_master_wr signals an uncorrectable error exactly once for each received TLP that is not a memory write or is poisoned, in the cycle after its first word, and never else; such TLPs cause no AXI transfer.", "quantifier": "all configurations, all well-formed input sequences, all timings, after a reset in any state", "why_tests_cant": "the output is a pulse of one cycle that depends on the position in the stream of TLPs", "anchors": ["rtl/pcie_axi_master_wr.v: status_error_uncor"]}
{"id": "C73", "title": "AXI master for writes makes progress", "statement": "pcie_axi_master_wr: if the AXI interface is ready, all bytes of TLPs received completely are written within a fixed number of cycles whatever is received then, and the module becomes ready for input within a fixed number of cycles.", "quantifier": "all configurations, all states reachable after a reset, all inputs that follow", "why_tests_cant": "a lost wake-up between the FIFO, the state machine and the input ready signal shows only in certain fill states", "anchors": ["rtl/pcie_axi_master_wr.v: rx_req_tlp_ready, out_fifo_half_full_reg"]}
{"id": "C74", "title": "AXI master answers memory reads with the data read", "statement": "pcie_axi_master_rd answers each memory read with successful completions that bring exactly the bytes read from the AXI interface for it, in order: the first starts at the address of the read, each following one where the previous one ended and at a multiple of 128 bytes, none is larger than the maximum payload, and tag, requester, traffic class, attributes, byte count and lower address are those of the request and of the bytes left. An unsupported non-posted request gets one completion with status UR and no data; posted requests and completions get none.", "quantifier": "all bus widths from 64 bits, address widths and burst lengths, all settings of the maximum payload, all sequences of requests, all memory contents, all timings of the request, AXI and completion interfaces, after a reset in any state", "why_tests_cant": "length, alignment, byte enables and payload boundaries multiply; data is shifted across words while three interfaces stall independently", "anchors": ["rtl/pcie_axi_master_rd.v: pcie_axi_master_rd, tx_cpl_tlp_data, tx_cpl_tlp_hdr, tlp_cmd_valid_reg"]}
{"id": "C75", "title": "AXI master for reads obeys the AXI channels", "statement": "pcie_axi_master_rd reads each completion's data with one burst: no burst crosses a 4 KB boundary, none is longer than the configured maximum, it covers exactly the bus words of the data, and read addresses and completion words offered stay unchanged until they are accepted.", "quantifier": "all configurations, all sequences of requests, all timings of the ready signals, after a reset in any state", "why_tests_cant": "an interconnect may stall each channel for any time; lengths wrap only for particular combinations of width, length and alignment", "anchors": ["rtl/pcie_axi_master_rd.v: m_axi_araddr, m_axi_arlen, m_axi_arvalid, tx_cpl_tlp_valid"]}
{"id": "C76", "title": "AXI master for reads reports exactly the requests it cannot do", "statement": "pcie_axi_master_rd signals an error exactly once for each received TLP that is not a memory read, in the cycle after its first word: an uncorrectable error for a posted request, a correctable one for anything else; and never else.", "quantifier": "all configurations, all sequences of TLPs, all timings, after a reset in any state", "why_tests_cant": "the outputs are pulses of one cycle that depend on the position in the stream of TLPs", "anchors": ["rtl/pcie_axi_master_rd.v: status_error_cor, status_error_uncor"]}
{"id": "C77", "title": "AXI master for reads makes progress", "statement": "pcie_axi_master_rd: if completions and read addresses are accepted and data is delivered, all completions for requests received are sent within a fixed number of cycles, and the module becomes ready for the next request within a fixed number of cycles.", "quantifier": "all configurations, all states reachable after a reset, all inputs that follow", "why_tests_cant": "a handshake that is lost between the request and the completion side shows only for certain orders of requests and stalls", "anchors": ["rtl/pcie_axi_master_rd.v: rx_req_tlp_ready, tlp_cmd_ready, m_axi_rready"]}
{"id": "C78", "title": "TLP demultiplexer routes whole TLPs", "statement": "pcie_tlp_demux without output FIFOs hands each TLP, whole, unchanged, in order and in the lanes in which it came, to the port that the control inputs select in the cycle of its first segment (the highest one selected), and drops it if drop is set or no port is selected; segments outside a TLP go nowhere; nothing is lost or duplicated.", "quantifier": "all numbers of ports and segments per word, all sequences of segments, all timings of the ready, enable, select and drop inputs, after a reset in any state", "why_tests_cant": "TLPs may start and end in any lane, several in one word for different ports, each of which stalls on its own", "anchors": ["rtl/pcie_tlp_demux.v: pcie_tlp_demux, in_tlp_ready, out_tlp_valid, select, drop"]}
{"id": "C79", "title": "TLP demultiplexer keeps and delivers what it shows", "statement": "pcie_tlp_demux without output FIFOs shows what it accepts in the next cycle, keeps it unchanged until the port takes it, is ready exactly when it is enabled and shows nothing or all ports are ready, and a port that is shown nothing delays no other port by more than one cycle per word.", "quantifier": "all numbers of ports and segments, all states, all inputs", "why_tests_cant": "the ready signal combines all ports; a lost or repeated segment shows only for certain orders of stalls", "anchors": ["rtl/pcie_tlp_demux.v: in_tlp_ready, out_tlp_valid, out_tlp_ready"]}
{"id": "C80", "title": "TLP demultiplexer by BAR", "statement": "pcie_tlp_demux_bar without output FIFOs hands each TLP, whole and in order, to the port whose BAR number (from BAR_IDS, or BAR_BASE plus a multiple of BAR_STRIDE) is that of the TLP's first segment, and drops TLPs for other BARs; its configuration check accepts exactly the settings with distinct BAR numbers up to 5.", "quantifier": "all numbers of ports and segments, all settings of the BAR numbers, all sequences of TLPs, all timings, after a reset in any state", "why_tests_cant": "the selection is made per lane and must hold for the rest of the TLP, whatever BAR number later segments carry", "anchors": ["rtl/pcie_tlp_demux_bar.v: pcie_tlp_demux_bar, calcBarIds, BAR_IDS, select"]}
{"id": "C81", "title": "TLP FIFO keeps whole TLPs in order", "statement": "pcie_tlp_fifo hands out exactly the segments it accepted, unchanged and in order, each once; a TLP is shown only after its last segment has been accepted.", "quantifier": "all depths, widths and numbers of segments per word, all sequences of segments, all timings of valid and ready on both sides, after a reset in any state", "why_tests_cant": "the positions wrap around, input words may be only partly valid, and the two sides stall independently", "anchors": ["rtl/pcie_tlp_fifo.v: pcie_tlp_fifo, in_tlp_ready, out_tlp_valid", "rtl/pcie_tlp_fifo_raw.v: pcie_tlp_fifo_raw"]}
{"id": "C82", "title": "TLP FIFO handshake and levels", "statement": "pcie_tlp_fifo keeps what it shows until it is taken, never overwrites stored segments, is ready while its contents are below its depth less two words, and its half_full and watermark outputs follow the amount stored.", "quantifier": "all depths and watermarks, all histories after a reset in any state", "why_tests_cant": "full is computed one cycle late, so that an overflow shows only for certain orders of stalls at certain fill levels", "anchors": ["rtl/pcie_tlp_fifo_raw.v: in_tlp_ready, half_full, watermark", "rtl/pcie_tlp_fifo.v: out_tlp_valid"]}
{"id": "C83", "title": "TLP FIFO drains and becomes ready", "statement": "When the receiver is ready, all TLPs accepted completely by pcie_tlp_fifo come out after a number of cycles bounded by the amount stored, and the FIFO becomes ready for more.", "quantifier": "all depths, all histories after a reset in any state, all continuations in which the receiver is ready", "why_tests_cant": "progress concerns all continuations; a hang needs a TLP that is long compared with the FIFO", "anchors": ["rtl/pcie_tlp_fifo.v: pcie_tlp_fifo, in_tlp_ready, out_tlp_ready", "rtl/pcie_tlp_fifo_raw.v: full_cur_reg"]}
{"id": "C84", "title": "TLP demultiplexer with output FIFOs routes complete TLPs", "statement": "With output FIFOs, pcie_tlp_demux hands each receiver the complete TLPs assigned to its port, unchanged and in order, each once, and no part of a TLP whose last segment has not been accepted; pcie_tlp_demux_bar does the same with the TLPs for the BAR of the port.", "quantifier": "all numbers of ports, one segment per word or any power of two of them (the same number on both sides), all FIFO depths, all sequences of segments, all timings, after a reset in any state", "why_tests_cant": "the FIFOs pack the segments of each port anew, fill at different rates and stall the shared input register", "anchors": ["rtl/pcie_tlp_demux.v: pcie_tlp_demux, FIFO_ENABLE, out_tlp_ready_int", "rtl/pcie_tlp_fifo.v: pcie_tlp_fifo", "rtl/pcie_tlp_demux_bar.v: pcie_tlp_demux_bar"]}
{"id": "C85", "title": "TLP demultiplexer with output FIFOs makes progress", "statement": "With output FIFOs, a receiver that is ready gets all complete TLPs accepted for it after a bounded number of cycles, whatever the other receivers do; a receiver that stalls does not delay the others until its FIFO is nearly full; when all receivers are ready the input becomes ready again.", "quantifier": "all numbers of ports, one segment per word or any power of two of them, all FIFO depths, all histories after a reset in any state, all continuations", "why_tests_cant": "progress concerns all continuations; a hang needs a TLP that is long compared with the FIFO of its port", "anchors": ["rtl/pcie_tlp_demux.v: in_tlp_ready, out_tlp_ready_int", "rtl/pcie_tlp_fifo_raw.v: full_cur_reg"]}
{"id": "C86", "title": "TLP multiplexer merges without mixing TLPs", "statement": "pcie_tlp_mux hands on the segments accepted on its ports unchanged, those of each port in order, none lost or duplicated, and never a segment of one port within a TLP of another; at most three words of a port are inside.", "quantifier": "all numbers of ports and of segments per word, round robin or fixed priority in either direction, all sequences of words with any valid lanes, all timings of valid, pause and ready, after a reset in any state", "why_tests_cant": "TLPs of several ports share a word, are cut at word boundaries, and the choice of the port is made for each lane while the output stalls", "anchors": ["rtl/pcie_tlp_mux.v: pcie_tlp_mux, in_tlp_ready, out_tlp_valid, pause"]}
{"id": "C87", "title": "TLP multiplexer keeps what it shows and empties itself", "statement": "pcie_tlp_mux keeps a word that it shows until it is taken; when whole TLPs have been accepted and the receiver is ready, all of them come out within a number of cycles bounded by the number of segments that the input registers hold.", "quantifier": "all numbers of ports and of segments per word, all histories after a reset in any state", "why_tests_cant": "a lost handshake between the input registers, the selection and the output registers shows only for certain fill states", "anchors": ["rtl/pcie_tlp_mux.v: in_tlp_ready, out_tlp_valid, out_tlp_ready"]}
{"id": "C88", "title": "TLP multiplexer reports the sequence numbers of the TLPs", "statement": "sel_tlp_seq and sel_tlp_seq_valid of pcie_tlp_mux report, port by port, the sequence number of each TLP exactly once, in the order in which the TLPs go out, and nothing else.", "quantifier": "all numbers of ports and of segments per word, all sequences of words, all timings, after a reset in any state", "why_tests_cant": "several TLPs may begin in one cycle, and a start that is not committed must not be reported", "anchors": ["rtl/pcie_tlp_mux.v: sel_tlp_seq, sel_tlp_seq_valid"]}
{"id": "C89", "title": "The UltraScale configuration reader reports the settings it has read", "statement": "The extended-tag, maximum-payload and maximum-read-request outputs of pcie_us_cfg for each function are the fields of the Device Control register that was read last for that function over the configuration management interface (zero before the first read); every read asks for the Device Control register of one of the functions, a request stays unchanged until the core has finished it, and nothing is ever written.", "quantifier": "for every function layout (physical functions, virtual functions, their offset), every capability offset, every initial state, every history of the core's answers and their data", "why_tests_cant": "The mapping between answers and functions depends on when the core answers relative to the state of the reader; a test sees the few latencies of one core model.", "anchors": ["rtl/pcie_us_cfg.v: pcie_us_cfg"]}
{"id": "C90", "title": "The UltraScale configuration reader keeps its outputs fresh", "statement": "If the core finishes each configuration read within d cycles, pcie_us_cfg reads the settings of every function again within (d+260)*F cycles, F being the number of functions, at any time and for ever.", "quantifier": "for every function layout, every bound d, every history before and after", "why_tests_cant": "Progress for ever cannot be observed in a finite run; a counter that gets stuck after a rare order of events would pass tests.", "anchors": ["rtl/pcie_us_cfg.v: pcie_us_cfg"]}
{"id": "C91", "title": "The Intel configuration monitors decode each setting of each function", "statement": "For every output of pcie_s10_cfg (L-tile and H-tile) and pcie_ptile_cfg, each bit of the field of each function is the bit found at the documented place in the last word which the core has shown for that function at the address of the field (zero before): words for other functions or other addresses do not change it.", "quantifier": "for every number of functions, every output, every function and bit of it, and every history of words on the configuration bus", "why_tests_cant": "The 91 outputs times functions times histories are far more than tests sample; a wrong offset for one half of one field of one function is visible only with several functions and this field.", "anchors": ["rtl/pcie_s10_cfg.v: pcie_s10_cfg", "rtl/pcie_ptile_cfg.v: pcie_ptile_cfg"]}
{"id": "C92", "title": "AXI master: memory writes", "statement": "The bytes that the AXI master for reads and writes writes through its AXI interface are at any time the first of the bytes that the memory write TLPs accepted ask for, in the order of the TLPs and with their byte enables, whatever other TLPs are accepted in between; and all bytes of the writes accepted are written within a bounded time if the AXI write channels are ready, whatever the read side does.", "quantifier": "all bus widths, burst lengths and address widths, all sequences of well-formed TLPs and all schedules of the interfaces, from a reset in any state", "why_tests_cant": "The order and completeness of writes depends on the interleaving with reads and on back-pressure at five interfaces; tests sample few schedules.", "anchors": ["rtl/pcie_axi_master.v", "rtl/pcie_axi_master_wr.v", "rtl/pcie_tlp_demux.v"]}
{"id": "C93", "title": "AXI master: memory reads", "statement": "The completions that the AXI master for reads and writes sends are at any time the first of those that the memory read TLPs accepted need, in order, with the data that the AXI bursts for them bring; the bursts are those needed; and all completions are sent within a bounded time if the other sides are not waited for, whatever the write side does.", "quantifier": "all bus widths and parameters, all sequences of well-formed TLPs, all contents of memory, and all schedules of the interfaces, from a reset in any state", "why_tests_cant": "The same read can meet any mix of writes, pauses and stalls; tests sample few of them.", "anchors": ["rtl/pcie_axi_master.v", "rtl/pcie_axi_master_rd.v", "rtl/pcie_tlp_demux.v"]}
{"id": "C94", "title": "AXI master: order and progress of mixed requests", "statement": "The AXI master accepts requests again within a bounded time if the other sides are not waited for; a memory read accepted after a memory write sees the bytes of the write; and reads that wait for their completions to be accepted do not keep memory writes from being accepted.", "quantifier": "all sequences of well-formed TLPs and all schedules of the interfaces, from a reset in any state", "why_tests_cant": "Ordering and blocking depend on which AXI channel is stalled and when; a test passes as long as the write channels are fast.", "anchors": ["rtl/pcie_axi_master.v", "rtl/pcie_tlp_demux.v"]}
{"id": "C95", "title": "UltraScale RC and CQ interfaces: headers", "statement": "The TLP headers that the UltraScale receive interfaces make from completion and request descriptors have the layout of the PCIe specification and carry every field of the descriptor, with BAR, function and error code beside them; every error condition has its own code.", "quantifier": "all descriptors and all field values", "why_tests_cant": "The descriptors have some 2^128 values; a field that is shifted or cut shows only for the values that reach the missing bits.", "anchors": ["rtl/pcie_us_if_rc.v", "rtl/pcie_us_if_cq.v"]}
{"id": "C96", "title": "UltraScale RC and CQ interfaces: packets", "statement": "The TLP segments that leave the UltraScale receive interfaces are at any time the beginning of the packets that arrive on the AXI stream, in order, each with its own header and payload, the payload packed, with strobes on payload only and start and end marked, however packets straddle words.", "quantifier": "all packet lengths and placements in words, all pauses of the stream and of the FIFO behind, all interface widths from 128 bits, from a reset in any state", "why_tests_cant": "Packets can start and end in every lane and pauses can fall between any two words; the combinations are too many to test.", "anchors": ["rtl/pcie_us_if_rc.v", "rtl/pcie_us_if_cq.v"]}
{"id": "C97", "title": "UltraScale RC and CQ interfaces: progress", "statement": "Every packet that has arrived completely at an UltraScale receive interface is handed on after the FIFO behind has been ready twice more, even if no further packet arrives.", "quantifier": "all packet lengths and placements in words and all schedules, from a reset in any state", "why_tests_cant": "A packet that stays in the registers until the next one arrives is not noticed under continuous traffic.", "anchors": ["rtl/pcie_us_if_rc.v", "rtl/pcie_us_if_cq.v"]}
{"id": "C98", "title": "UltraScale CC and RQ interfaces: descriptors", "statement": "The descriptors that the UltraScale transmit interfaces make from TLP headers have every field of a completion or request in its documented place: address, DWORD and byte count, request type, IDs, tag, status, traffic class, attributes, poisoned and locked bits.", "quantifier": "all headers with the layout of the PCIe specification", "why_tests_cant": "The headers have some 2^128 values; a field that is shifted or cut shows only for the values that reach the missing bits, e.g. a byte count of exactly 4096.", "anchors": ["rtl/pcie_us_if_cc.v", "rtl/pcie_us_if_rq.v"]}
{"id": "C99", "title": "UltraScale CC and RQ interfaces: packets", "statement": "The words that the UltraScale transmit interfaces send hold at any time a beginning of the packets of the TLPs they have been given, the TLPs of each port in order and never mixed: descriptor and payload without gap, valid lanes on exactly these, and a side band that tells starts, ends, byte enables and sequence numbers, however packets straddle words; and a word does not change while the core does not take it.", "quantifier": "all TLP lengths, all interface widths, straddling or not, all pauses of the core and of the FIFOs, all credits, from a reset in any state", "why_tests_cant": "The payload is shifted by the descriptor, so that a packet may need one segment more than the TLP; where packets end and pauses fall gives too many combinations to test.", "anchors": ["rtl/pcie_us_if_cc.v", "rtl/pcie_us_if_rq.v"]}
{"id": "C100", "title": "UltraScale CC and RQ interfaces: progress", "statement": "If the core takes words and has credits, the UltraScale transmit interfaces have sent all TLPs given to them after as many cycles as the TLPs have segments, and two more; neither port is left behind.", "quantifier": "all TLP lengths and all histories before, from a reset in any state", "why_tests_cant": "A state in which a packet is stuck may need a special length and a special schedule before it.", "anchors": ["rtl/pcie_us_if_cc.v", "rtl/pcie_us_if_rq.v"]}
{"id": "C101", "title": "UltraScale RQ interface: credits and sequence numbers", "statement": "The RQ interface starts no read request when there were 8 or fewer non-posted header credits in the cycle before, and no write request when there were 8 or fewer posted header credits, or not more than two maximum payloads of posted data credits; and the sequence numbers that the core returns come back at the port and with the number of the TLP.", "quantifier": "all states, all credit values, all payload size settings, all sequence numbers", "why_tests_cant": "Credits seldom run out in tests, and sending without credit shows only as a stall of the core.", "anchors": ["rtl/pcie_us_if_rq.v"]}
{"id": "C102", "title": "Clients sharing DMA reads are kept apart", "statement": "When several clients share the read side of one DMA interface through the multiplexer, and the DMA interface writes to RAM only with the RAM select of a descriptor it was given: each client's RAM gets exactly the write commands issued for that client's descriptors, with the client's own RAM select, in order, each once; each client's descriptors reach the DMA interface in order, each once, asking for the same transfer; a status goes to the client whose descriptor it is for, and to no other, with the tag that client gave; completions of RAM writes are reported in command order and only after they happened; and nothing is kept back.", "quantifier": "every number of clients, every width configuration the module accepts, every history of descriptors, commands, ready signals and completions, every arbitration mode", "why_tests_cant": "Isolation between clients depends on the interleaving of all clients' descriptors with all outstanding RAM commands; tests run a few interleavings.", "anchors": ["rtl/dma_if_mux_rd.v: dma_if_mux_rd", "rtl/dma_if_mux.v: dma_if_mux", "rtl/dma_if_desc_mux.v: dma_if_desc_mux", "rtl/dma_ram_demux_wr.v: dma_ram_demux_wr"]}
{"id": "C103", "title": "Clients sharing DMA writes are kept apart", "statement": "When several clients share the write side of one DMA interface through the multiplexer, and the DMA interface reads RAM only with the RAM select of a descriptor it was given: each client's RAM gets exactly the read commands issued for that client's descriptors, with the client's own RAM select; the data the DMA interface gets for each command is the data of the RAM of the client whose descriptor it is for, in command order whatever the latencies of the RAMs; statuses go to the right client with its own tag; and nothing is kept back.", "quantifier": "every number of clients, every width configuration the module accepts, every history, every latency of each client's RAM", "why_tests_cant": "One client's data must never end up in another client's write; this depends on all interleavings of commands and responses.", "anchors": ["rtl/dma_if_mux_wr.v: dma_if_mux_wr", "rtl/dma_if_mux.v: dma_if_mux", "rtl/dma_if_desc_mux.v: dma_if_desc_mux", "rtl/dma_ram_demux_rd.v: dma_ram_demux_rd"]}
{"id": "C104", "title": "The AXI DMA descriptor multiplexer keeps ports apart", "statement": "Descriptors offered at several ports reach the AXI DMA engine in the order of each port, each once, with unchanged addresses and length; a status with the tag of such a descriptor is shown to the port it is from, and to no other, with the tag given there; no descriptor is kept back.", "quantifier": "every number of ports, every tag width the module accepts, every history of descriptors and ready signals", "why_tests_cant": "The order depends on the arbitration history; tests see a few of them.", "anchors": ["rtl/pcie_axi_dma_desc_mux.v: pcie_axi_dma_desc_mux"]}
{"id": "C105", "title": "P-Tile receive adapter: TLPs reach the right side, complete and in order", "statement": "TLPs that the receive side of the P-Tile adapter has stored come out in the order of arrival, completions at the completion output and all others at the request output, each with the payload, strobes, header and BAR number the hard IP has given for it; once both receivers are ready, every stored TLP comes out within a bounded time.", "quantifier": "every number of segments per row, every FIFO size, every history of rows and of ready signals of the two receivers after a reset", "why_tests_cant": "TLPs of both kinds share registers and pass through two FIFOs with independent receivers; the interleavings are unbounded.", "anchors": ["rtl/pcie_ptile_if_rx.v: pcie_ptile_if_rx", "rtl/pcie_tlp_demux.v: pcie_tlp_demux", "rtl/pcie_tlp_fifo.v: pcie_tlp_fifo"]}
{"id": "C106", "title": "P-Tile receive adapter: no row is lost", "statement": "If the hard IP sends a row only when rx_st_ready was set 27 cycles earlier (the ready latency of the interface), every row is stored, whatever the receivers of requests and completions do.", "quantifier": "every history of rows that obeys the ready latency and every behaviour of the receivers after a reset", "why_tests_cant": "The loss appears only if a FIFO fills while the source uses the whole ready latency; tests do not reach this alignment.", "anchors": ["rtl/pcie_ptile_if_rx.v: pcie_ptile_if_rx (FIFO_WATERMARK, rx_st_ready)"]}
{"id": "C107", "title": "P-Tile receive adapter: function number", "statement": "A request comes out with the number of the function it is for, as given by rx_st_func_num (three bits per segment).", "quantifier": "every function number, segment and history of rows after a reset", "why_tests_cant": "Tests use function 0.", "anchors": ["rtl/pcie_ptile_if_rx.v: pcie_ptile_if_rx (tlp_func_num_next)"]}
{"id": "C108", "title": "Stratix 10 receive adapter: TLPs are split into header and payload, realigned and routed right", "statement": "The receive adapter for the Intel Stratix 10 hard IP turns the packed stream (header and payload in one sequence of double words, eight per segment, `empty` at the end) into TLPs with a separate header and a payload that starts at the first lane. Each receiver (requests, completions) gets exactly the TLPs of its kind, whole, in order, with the header, payload, strobes, BAR and function number that were sent, for every mix of headers of three and four double words, every length, every pause of source and receivers. With both receivers ready, every TLP sent comes out after a bounded number of cycles.", "quantifier": "all states before the reset, all histories of input rows and ready signals, all TLPs at least as long as their header, FIFOs of any size, one or several segments per row", "why_tests_cant": "The payload is shifted by three or four double words, so each output row depends on two input rows, on whether the next row has come yet, and on the header length of the TLP; tests see a few lengths and pause patterns.", "anchors": ["rtl/pcie_s10_if_rx.v", "rtl/pcie_tlp_demux.v", "rtl/pcie_tlp_fifo_raw.v"]}
{"id": "C109", "title": "Stratix 10 receive adapter: no row is lost at the ready latency of the hard IP", "statement": "A source that sends only when `rx_st_ready` was set the ready latency (17 cycles for 256 bits, 18 for 512) before never sees a row lost or overwritten, whatever the receivers do, so what the receivers get is what was sent.", "quantifier": "all histories of a source that obeys the ready latency, all behaviours of the receivers, all latencies up to watermark room minus two", "why_tests_cant": "The worst case needs both FIFOs filled exactly to the watermark and the full latency in flight at the same moment.", "anchors": ["rtl/pcie_s10_if_rx.v", "rtl/pcie_tlp_demux.v", "rtl/pcie_tlp_fifo_raw.v", "tb/pcie_s10_if_rx/test_pcie_s10_if_rx.py"]}
{"id": "C110", "title": "TLP multiplexer with FIFOs: whole TLPs, in order, none lost", "statement": "TLPs offered at several ports of the multiplexer with FIFOs come out at its output whole and not mixed, those of each port in the order in which they went in, unchanged, each once, and only after they have gone in completely; an offered segment stays until it is taken; and once no port is paused and the receiver is ready, all TLPs that have gone in completely come out within a bounded time.", "quantifier": "every number of ports, both kinds of arbitration, every FIFO size, every history of offered segments, pauses and ready signals after a reset", "why_tests_cant": "The selection runs one cycle ahead of the data, on a second read path of each FIFO; that both stay in step depends on the whole history.", "anchors": ["rtl/pcie_tlp_fifo_mux.v: pcie_tlp_fifo_mux", "rtl/pcie_tlp_fifo_raw.v: pcie_tlp_fifo_raw (CTRL_OUT_EN)"]}
{"id": "C111", "title": "TLP multiplexer with FIFOs: pause, sequence numbers and credit counts", "statement": "A port that is paused starts no TLP; for each TLP that goes out its sequence number is reported exactly once, at the port it is from, in the order in which the TLPs go out; and the credit counts report for each TLP that goes out exactly the header and data credits of its class, once.", "quantifier": "every number of ports, both kinds of arbitration, every FIFO size, every history of offered segments, pauses and ready signals after a reset", "why_tests_cant": "Reports and data take different paths with different delays; a missed or doubled report shows only in some alignments.", "anchors": ["rtl/pcie_tlp_fifo_mux.v: pcie_tlp_fifo_mux (pause, sel_tlp_seq, sel_tlp_seq_valid, out_fc_ph)", "rtl/pcie_tlp_fc_count.v: pcie_tlp_fc_count"]}
{"id": "C112", "title": "P-Tile transmit: TLPs whole, in order, without gaps, within the ready latency", "statement": "What the P-Tile transmit adapter sends is a merge of the TLPs of its four inputs: whole, not mixed, those of each input in order and unchanged, each once, and only after they have gone in completely; tx_st_valid is set only if tx_st_ready was set three cycles before, and it does not go low in the middle of a TLP while tx_st_ready was set. The same holds at the output of the TLP multiplexer with FIFOs: it does not pause in the middle of a TLP.", "quantifier": "every FIFO size, every history of offered segments, credits, settings and ready signals after a reset", "why_tests_cant": "A gap arises only when the filling of the FIFOs, back-pressure and the end of a TLP meet in a particular cycle; no set of schedules shows that none does it.", "anchors": ["rtl/pcie_ptile_if_tx.v: pcie_ptile_if_tx (tx_st_valid, tx_st_ready)", "rtl/pcie_tlp_fifo_mux.v: pcie_tlp_fifo_mux"]}
{"id": "C113", "title": "P-Tile transmit: credits", "statement": "The TLPs sent by the P-Tile transmit adapter never need more header or data credits of a class than the P-Tile has advertised for it.", "quantifier": "every history of offered TLPs and of advertised limits after a reset", "why_tests_cant": "Between the check and the count several TLPs can start; whether the margin is enough depends on the schedule of TLPs and of the time-multiplexed limits.", "anchors": ["rtl/pcie_ptile_if_tx.v: pcie_ptile_if_tx (mux_pause, have_np_credit_reg)", "rtl/pcie_ptile_fc_counter.v: pcie_ptile_fc_counter"]}
{"id": "C114", "title": "P-Tile transmit: all accepted TLPs are sent", "statement": "When nothing more is offered to the P-Tile transmit adapter, tx_st_ready is set and the credit outputs show enough credit for a TLP of each class, all TLPs that have gone in completely are sent, within a number of cycles bounded by the size of the FIFOs.", "quantifier": "every FIFO size, every setting of the greatest payload, every history of offered segments, credits and ready signals after a reset, followed by any quiet history that is long enough", "why_tests_cant": "Whether a TLP gets stuck depends on where all FIFOs and the two-cycle ready and credit pipelines stand when the input ends; tests see a few of these states.", "anchors": ["rtl/pcie_ptile_if_tx.v: pcie_ptile_if_tx (tx_st_ready_delay_reg, have_p_credit_reg, have_np_credit_reg, have_cpl_credit_reg)", "rtl/pcie_tlp_fifo_mux.v: pcie_tlp_fifo_mux"]}
{"id": "C115", "title": "Dual-port segmented RAM with two clocks", "statement": "Every read command accepted by the dual-port RAM with separate clocks produces exactly one response, in order, with the bytes of the latest writes at edges of the write clock before it was accepted, under any back-pressure; writes update exactly the enabled bytes and are reported done exactly once; what happens on one side, a reset included, disturbs neither order nor count on the other.", "quantifier": "every PIPELINE depth, every interleaving of the edges of the two clocks, every history, back-pressure and reset of the other side", "why_tests_cant": "The two clocks can drift in any way; tests run a few ratios.", "anchors": ["rtl/dma_psdpram_async.v: dma_psdpram_async"]}
