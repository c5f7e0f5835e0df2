# Formal model of alexforencich/verilog-pcie in Lean 4

The repository holds two bodies of code.

* `tb/*.py`: a Python model of a PCIe fabric (TLPs, functions, bridges, root
  complex, enumeration, interface sources and sinks, RAM models).
* `rtl/*.v`: the Verilog components themselves.

Both are modelled. Python functions become total Lean functions over `Nat`,
`List` and structures, with exceptions as values. Verilog modules become
synchronous step functions `state -> input -> state`, where all right-hand
sides read the old state (non-blocking assignment), and outputs are functions
of the state (and, for combinational outputs, of the inputs).

## Layout

* `lean/Verif/Basic/`: arithmetic and list lemmas, no model content.
* `lean/Verif/Model/`: the model. Every definition cites file and lines.
* `lean/Verif/Spec/`: small specifications written without reference to the model.
* `lean/Verif/Proofs/`: helper lemmas.
* `lean/Verif/Props/`: one file per area with the property theorems. Each theorem
  name starts with its property id, and is followed by an `example` that
  instantiates its hypotheses on a non-trivial case.

If the code violates a property, the file proves the negation on a concrete
witness (`CNN_..._fails`), and the part that does hold under an explicit guard is
proved with the suffix `_partial`. Disagreements are listed at the end.

## Conventions for the Python model

* Python integers that the code never makes negative are `Nat`. `&`, `|`, `^`,
  `<<`, `>>` are `&&&`, `|||`, `^^^`, `<<<`, `>>>`. `x & ~m` is modelled per bit.
* Generators (`yield`) are modelled by the sequence of effects they perform
  (TLPs sent, memory writes). Simulator time is not modelled.
* `print` logging is dropped.
* `math.ceil(math.log(size, 2))` is modelled as the exact ceiling of log2.
  CPython's floating point rounding gives a different result for a few sizes
  (for example 2^29); this is outside the model.

## Conventions for the RTL model

* Registers of width w are `Nat` with explicit `% 2^w` at each assignment, `Bool`
  for one bit, functions or lists for memories.
* Reset is modelled where the module has it: an input bit `rst`, with priority.
* X/Z values, delta cycles and timing are not modelled.

## Plan per property

| id | what is modelled | how it is proved |
|----|------------------|------------------|
| C01 | `PcieId.from_int`, `__int__` | field arithmetic, both directions |
| C02 | `byte_mask_update` loop | invariant of the loop, per bit |
| C03 | `align` | arithmetic |
| C04 | `TLP.set_be` | byte-enable set equals address interval |
| C05 | offset and count getters | arithmetic over `set_be` |
| C06 | `get_lower_address` | operator precedence defect: negation and aligned part |
| C07 | `set_data`, `set_be_data`, `get_data` | list induction, little-endian round trip |
| C08 | `pack`/`unpack`, completions | field arithmetic round trip |
| C09 | `pack`/`unpack`, requests | several defects: negation, and the part that round-trips |
| C10 | `mem_write` loops | induction on remaining bytes, refinement to flat memory write |
| C11 | `RootComplex.mem_read` and completer | induction on remaining bytes, composition with C13 |
| C12 | `Function.mem_read` | defect: wrong length passed to `set_be`; single-chunk part |
| C13 | completion splitting loop | invariant over (m, n, addr) |
| C14 | write handlers | run-length loop equals per-byte update |
| C15, C16 | `PcieCapList` | list invariant; off-by-one defect in the free slot search |
| C17 | config header registers | per-bit equation for every register |
| C18 | `configure_bar`, BAR write, `match_bar` | mask arithmetic |
| C19 | MSI capability | decision logic |
| C20 | `alloc_region` | defect: limit is inclusive; negation, guarded part |
| C21, C22 | config_read/config_write, enumerate_segment, enumerate (`Model/Enum.lean`), with the hardware as a parameter | Hoare-style invariants of the loops over functions and devices, induction over the depth; theorems about the device tree for any hardware that lets enumeration complete |
| C23 | bridge routing | decision logic against window specification |
| C24 | `Device` | list invariant |
| C25 | `get_free_tag` | defect: outstanding tags are not tracked; negation, guarded part |
| C26 | parity | bit arithmetic |
| C27 | `PcieIfSource`, `PcieIfSink` | simulation over arbitrary schedules |
| C28 | segmented RAM | refinement to flat memory |
| C29 | UltraScale descriptors | field arithmetic round trip |
| C30 | `priority_encoder` | induction on tree levels |
| C31, C32 | `arbiter` | invariant over all histories; rank argument |
| C33 | `pulse_merge` | conservation invariant |
| C34 | `pcie_tlp_fc_count` | defect: 9 of 10 length bits used; negation and guarded part |
| C35..C39 | muxes, demuxes, RAM | refinement to queues, generic skid buffer lemma |
| C40, C41, C50, C51 | `dma_if_pcie_wr`, whole module | ghost queues of TLPs and reads behind the pipeline, invariant over all histories with any RAM that answers correctly; interval induction for the segmentation; byte-level frame lemma; sequence numbers as a window of the operation table; three defects as negations |
| C52 | `pcie_us_axis_rc_demux`, `pcie_us_axis_cq_demux` (both data path variants) | frame tracking and skid register as an invariant over all histories; lost and stale words as negations |
| C53, C54, C55 | `pcie_us_msi`, `pcie_s10_msi` with their arbiter | potential function counting edges; rank of the round robin arbiter as a measure for a time bound; lost edge and stale grant as negations |
| C56, C57 | `dma_client_axis_source`, whole module | ghost queue of words read and not sent; invariant over all histories with any RAM that answers correctly; work measure for the time bound; two defects as negations |
| C58, C59 | `dma_client_axis_sink`, whole module | specification of the effect of each word; the words taken are the specified effects (induction over histories); invariant linking FIFOs, completion counters and writes outstanding in the RAM; work measure for the time bound; two defects as negations |
| C60 | `dma_if_pcie_rd`, request part of the whole-module model | sizes and headers of requests by arithmetic; invariant that requests sent, offered and still to be made are those of the accepted descriptors; two defects as negations |
| C61 | `dma_if_pcie_rd`, whole-module model; `RdEnv` tracks, from the interfaces only, the requests outstanding | invariant: tag FIFOs, tag register, outstanding requests and the tag just finished partition the tags; the tag table and the active flags agree with the outstanding requests; one defect as negation |
| C62 | as C61; `rdKind` classifies completions | the same invariant: the active flag of a tag says whether a request is outstanding; one defect as negation |
| C63 | as C61; `drdSegParts` says what completions write in each RAM segment | the stage after the state machine, the pipeline register and the output FIFOs form a queue without loss (gating at half full); one defect as negation |
| C64 | as C63; when a descriptor is complete, and its status, are defined by the specification (`RdEnv.emit`) from requests and completions alone | the entries of the status FIFO are the completions in order; the counters of the operation table are related to the number of requests outstanding or waiting, less than `2^(PCIE_TAG_WIDTH+1)` with at least 32 tags; a measure for bounded time; one defect as negation |
| C65 | as C64; completions bring byte `q` of each descriptor as a function `data` says, for instance from a memory | what has been written for a descriptor, what its outstanding requests are to bring and what is not yet requested is always a permutation of the whole copy |
| C66..C69 | `pcie_axil_master_minimal`, whole module | invariant over all histories: transfers made and on offer are those of the requests; responses finished, current and in the FIFO are those of the requests; headers by arithmetic on bit fields; a measure for the time bound; the message defect as negation |
| C70..C73 | `pcie_axi_master_wr`, whole module | specification by bytes: what the TLPs ask to be written, and what AXI bursts write; invariant over all histories: the data transfers generated are the first of those that the TLPs need; FIFO fill bounded state by state; a measure for the time bounds; partial for TLPs that need one burst, the defects of longer ones as negations |
| C74..C77 | `pcie_axi_master_rd`, whole module | specification by completions: their header fields, data and bursts as a function of the requests, with a slave that answers each burst with its own memory contents; invariant over all histories for both sides and the command between them; a measure for the time bounds; partial for histories in which unsupported requests come alone, the defects as negations |
| C78..C80 | `pcie_tlp_demux` without output FIFOs and `pcie_tlp_demux_bar` | induction over the lanes of a word and over histories; the specification assigns segments to ports by the last start flag before them, and for whole TLPs by a filter over the list of TLPs |
| C81..C83 | `pcie_tlp_fifo` with `pcie_tlp_fifo_raw` | invariant over histories that ties pointers, memory and output registers to the list of accepted segments; complete TLPs are the part of that list up to the last end flag |
| C84, C85 | `pcie_tlp_demux` with output FIFOs | composition: the histories of the demultiplexer proper and of each FIFO are read off the history of the whole, and the theorems C78 to C83 apply to them |
| C86..C88 | `pcie_tlp_mux` | invariant of the loop over the lanes (what is committed is a sequence of port lanes, each port in order from its offset), then of the input registers and the output queue: the accepted segments are those merged and those still in the register; draining by counting the segments left |
| C89, C90 | `pcie_us_cfg` | invariant relating the state of the reader to the list of the reads that the core has finished; progress by a ranking function on the function counter and the delay counter |
| C91 | `pcie_s10_cfg`, `pcie_ptile_cfg` | the assignments as a table; a slice lemma for the function index, then induction on the history; the table is compared with a separate list of the fields by evaluation, one output at a time (a finite whole table) |
| C92..C94 | `pcie_axi_master.v` is modelled as the composition of the models of the demultiplexer and of the two masters; histories of the parts are projections of a history of the whole; C70-C79 carry over; one lemma says that the words of a port are those of the TLPs routed to it; order and blocking are refuted by concrete histories |
| C95..C97 | UltraScale RC and CQ interfaces: descriptors, framing with straddling, packets, progress | layout by arithmetic; decoding of the framing by induction over lanes and segments, one invariant over histories that relates accepted and emitted segments |
| C98..C101 | UltraScale CC and RQ interfaces: descriptors, packets on the stream with straddling, progress, credits and sequence numbers | layout by arithmetic; loop invariant over the segments of a word, one invariant over histories that relates segments read and words sent, a measure for progress |
| C102..C104 | Clients sharing a DMA interface | Product of the descriptor multiplexer (C36) and one RAM demultiplexer per segment (C37, C38). The environment issues RAM commands with the RAM selects of descriptors it was given; the routing bits put in by the multiplexer are those the demultiplexer reads, so commands, responses and statuses return to the client. Progress from the drain theorems of the parts. |
| C105..C107 | Receive side of the P-Tile adapter | Input register in front of the TLP demultiplexer with its FIFOs (C85). The contents of the register and the rows accepted by the demultiplexer make up the stored rows (ledger); routing, order and delivery are transported from C85 and read back on whole TLPs. No loss: the fill level of each FIFO is at most the watermark plus the number of rows sent since it was reached. |
| C108, C109 | Receive side of the Stratix 10 adapter | The input register holds at most one row; a stream function says what the segments sent so far make of the output, given only the following segment. Ledger: rows loaded so far, followed by the stream function of the waiting segments, is the stream function of all segments sent. On whole TLPs the stream function is the specification (header apart, payload in rows), so routing, order and delivery follow as for C105 through a generic register in front of the demultiplexer (`Proofs/RxReg.lean`). |
| C110, C111 | TLP multiplexer with FIFOs | The control path of a FIFO is a second reader of the same memory; as seen by it the FIFO is again the FIFO of C81 (`tfxView`), so both paths satisfy the FIFO invariant in lockstep. Key invariant: the control path has read at most one word more than the data path, and a word shown on the control path has been read by the data path; so one cycle after the selection the data output shows the selected segment. Ledger for the multiplexer: selected segments = taken ++ output FIFO ++ the one on its way. Progress: a weighted sum of what every stage still has to do falls in every quiet cycle. |
| C112 | P-Tile transmit adapter, no gaps | The adapter is the multiplexer of C110 with registers behind it: its lists of words are those of the multiplexer on mapped inputs, so the merge theorem carries over. No gaps: an invariant with three parts. A word shown on the control path of a FIFO with none behind it ends a TLP, because the FIFO shows whole TLPs only; so in the middle of a TLP only the level of the output FIFO stops the selection; and then at least 14 segments are in that FIFO. So the output register is never empty after a word without an end flag. |
| C113 | P-Tile transmit adapter, credits | For read requests with the limit presented in every cycle, constant or growing: available credits, those in the two counting stages and the selected requests add up to the limit; a request is selected only with four or more available, at most two are not yet counted, and those not yet counted are still in the output FIFO, so that the available credits never reach the cap. In general: the selection of a TLP is traced back through two registers to the credit outputs; the full claim is refuted by a history of 13 cycles (evaluated by the kernel). |
| C114 | P-Tile transmit adapter, progress | After two quiet cycles the ready and credit pipelines let the multiplexer send and pause no port; then the drain theorem of the multiplexer (C110) applies. One segment per word. |
| C115 | segmented RAM with two clocks | Events are instants with an edge of one clock or of both; the read pipeline is a queue that moves at edges of the read clock only (lemmas of C39), the memory is the fold of the writes. A read at the same instant as a write of the same word gets the old word, which memory blocks do not guarantee. |
| C42..C44 | interrupt and credit modules | invariants, defects as negations |
| C45, C46, C47 | capability register reads and writes, PCIe capability, extended list | per-bit equations; list invariant; several defects as negations |
| C48 | type 1 header | per-bit equation for every register; two defects as negations |
| C49 | AXI lite side of `pcie_msix` | queue and memory invariants over all histories of a master that holds its requests |

## Trusted base

* Lean 4.33.0 kernel. No axioms are added. `AXIOMS.md` lists the axioms of each
  theorem as printed by Lean: at most `propext`, `Classical.choice`, `Quot.sound`.
* The faithfulness of the definitions in `Verif/Model` to the cited lines. Nothing
  in the repository is executed; the model was written by reading.
* The definitions in `Verif/Spec` say what the English properties say.
* No compiler trust (`native_decide`, `bv_decide` are not used). `decide` is used
  for examples, for concrete witnesses, and for whole finite tables.

## What the mutation log shows

An entry of `seeded/LOG.jsonl` lists the declarations whose proofs broke after the edit. For most entries
(183 of the first 202) these are helper lemmas, and the property theorems in `blocked_modules` were not
reached. Some of the helpers only restate a definition. A control edit that does not change the behaviour
(`srcReadStep`, C56 batch) also broke helper proofs. So such an entry shows that the edit was noticed, and not
by itself that the property theorem is false of the edited model. Entries with the field `refuted` give the
stronger evidence: the conclusion of the named theorem was evaluated to false on a concrete history of the
edited model that meets its hypotheses, by Lean's interpreter (`seeded/refute`; a test, not a proof).

## What is modelled

| code | model |
|------|-------|
| `tb/pcie.py` helpers, `PcieId`, `TLP` | `Util`, `Tlp` |
| `tb/pcie.py` `PcieCapList`, `PcieExtCapList`, all capabilities | `Cap`, `Config`, `PcieCap` |
| `tb/pcie.py` `Function`, `Endpoint`, `MemoryEndpoint` | `Config`, `Bar`, `Tags`, `MemOps`, `Region` |
| `tb/pcie.py` `Bridge`, `Device`, `Switch`, ports, `HostBridge`, `RootPort` | `Bridge`, `Fabric` |
| `tb/pcie.py` `RootComplex`: memory, regions, tags, configuration, enumeration | `MemOps`, `Region`, `Tags`, `Enum`, `Root` |
| `tb/pcie_us.py` descriptors and frames, lines 59-591 | `Us` |
| `tb/pcie_if.py` sources and sinks, parity | `PcieIf`, `Us` |
| `tb/dma_psdp_ram.py` | `Psdp` |
| `rtl/priority_encoder.v`, `rtl/arbiter.v` | `Arbiter` |
| `rtl/pulse_merge.v`, `rtl/pcie_tlp_fc_count.v`, `rtl/pcie_ptile_fc_counter.v` | `Counters` |
| `rtl/axis_arb_mux.v`, `rtl/dma_if_desc_mux.v` | `ArbMux` |
| `rtl/dma_ram_demux_rd.v`, `rtl/dma_ram_demux_wr.v` | `RamDemux`, `Ring` |
| `rtl/dma_psdpram.v` | `DmaPsdpRam` |
| `rtl/irq_rate_limit.v` | `IrqRateLimit` |
| `rtl/pcie_msix.v` | `Msix` |
| `rtl/dma_if_pcie_wr.v` | `DmaIfPcieWr` |
| `rtl/dma_if_pcie_rd.v` | `DmaIfPcieRd` |
| `rtl/dma_client_axis_source.v` | `DmaClientSource` |
| `rtl/dma_client_axis_sink.v` | `DmaClientSink` |
| `rtl/pcie_axil_master_minimal.v` | `AxilMin` |
| `rtl/pcie_axi_master_wr.v` | `AxiMasterWr` |
| `rtl/pcie_axi_master_rd.v` | `AxiMasterRd` |
| `rtl/pcie_tlp_demux.v` (`FIFO_ENABLE = 0`), `rtl/pcie_tlp_demux_bar.v` | `TlpDemux` |
| `rtl/pcie_tlp_demux.v` (`FIFO_ENABLE = 1`) | `TlpDemuxFifo` |
| `rtl/pcie_tlp_mux.v` | `TlpMux` |
| `rtl/pcie_us_cfg.v` | `UsCfg` |
| `rtl/pcie_s10_cfg.v`, `rtl/pcie_ptile_cfg.v` | `CfgMonitor` |
| `rtl/pcie_axi_master.v` (TLP input, AXI channels, completions; the merged error output is modelled, nothing is proved of it here) | `AxiMaster` |
| `rtl/pcie_us_if_rc.v`, `rtl/pcie_us_if_cq.v` (all widths from 128 bits, straddling; without the branch for 64 bits and without the FIFO at the end, which is modelled in `TlpFifo`) | `UsIfRx` |
| `rtl/pcie_us_if_cc.v`, `rtl/pcie_us_if_rq.v` (all widths, straddling, credits, sequence numbers; without the FIFOs at the inputs) | `UsIfTx` |
| `rtl/dma_if_mux_rd.v`, `rtl/dma_if_mux_wr.v` (complete; `rtl/dma_if_mux.v` and `rtl/dma_ram_demux.v` place the read and write modules side by side and add no logic), `rtl/pcie_axi_dma_desc_mux.v` (complete) | `DmaIfMux` |
| `rtl/pcie_ptile_if_rx.v` (complete, for `TLP_SEG_COUNT` equal to `SEG_COUNT`; the inputs `rx_st_vf_active`, `rx_st_vf_num` and `rx_st_tlp_abort` are not read by the module) | `PtileIfRx` |
| `rtl/pcie_s10_if_rx.v` (complete, for `TLP_SEG_COUNT` equal to `SEG_COUNT`) | `S10IfRx` |
| `rtl/pcie_tlp_fifo_mux.v` and `rtl/pcie_tlp_fifo_raw.v` with `CTRL_OUT_EN = 1`, one segment per word | `TlpFifoMux` |
| `rtl/pcie_ptile_if_tx.v`, one segment per word | `PtileIfTx` |
| `rtl/dma_psdpram_async.v` | `DmaPsdpRamAsync` |
| `rtl/pcie_tlp_fifo.v`, `rtl/pcie_tlp_fifo_raw.v` (one segment per word) | `TlpFifo` |
| `rtl/pcie_tlp_fifo.v`, `rtl/pcie_tlp_fifo_raw.v` (the same power of two of segments on both sides) | `TlpFifoSeg` |
| `rtl/pcie_us_msi.v`, `rtl/pcie_s10_msi.v` | `Msi` |
| `rtl/pcie_us_axis_rc_demux.v`, `rtl/pcie_us_axis_cq_demux.v` | `AxisDemux` |

Simplifications are stated at the head of each model file and at the definitions.

## What is not modelled

* Simulator time, logging, `__repr__`, link delays and link state.
* `tb/axi.py`, `tb/axil.py`, `tb/axis_ep.py`, `tb/pcie_usp.py`, `tb/pcie_s10.py`, the
  hard IP models (`pcie_us.py` after line 591, `cocotbext`).
* The remaining RTL: `dma_if_axi*`, the wrappers `dma_if_pcie`, `pcie_us_if`,
  `pcie_s10_if` and `pcie_ptile_if`, the stand-alone UltraScale engines
  (`dma_if_pcie_us*`, `pcie_us_axi_*`, `pcie_us_axil_master`),
  `pcie_axil_master`, `pcie_tlp_fifo_mux` with more than one segment, `pcie_s10_if_tx`
  and `pcie_ptile_if_tx` with more than one segment.

## Disagreements between code and property

Each is either proved as a `..._fails` theorem or is a reading note on code outside
the theorems.

Python fabric:

* `TLP.get_lower_address`: operator precedence (C06). `TLP.pack`/`unpack`: configuration
  requests, 3 DW reads and 4 DW headers do not round-trip (C09). `TLP.check`:
  `0 > length > 1024` is never true.
* `Function.mem_read` passes a wrong length to `set_be` for reads of several
  requests (C12). A zero-length read has a completion with data (C13).
* Capability lists: off by one in the search for a free slot (C15, C16).
  Configuration accesses to the extended space are routed to the wrong list when
  offsets collide (C45, C47). MSI registers can be `None`. PCIe capability: link
  capabilities are shifted the wrong way, link control RCB, device status bits, and
  register 12 raises `UnboundLocalError` (C46).
* Type 0 header: the interrupt pin is writable; memory and I/O enable bits are not
  checked by `match_bar`, which also aliases addresses (C18).
* Bridge: secondary status cannot be cleared, register 15 raises `AttributeError`
  (C48). Unroutable requests are dropped instead of completed with UR (C23).
  Messages routed by ID use the requester ID (C23).
* `Device.add_function` does not check that the number is below 8 (C24).
* Tags of outstanding requests can be allocated again (C25).
* Host bridge window limit is inclusive and off by one (C20). MSI message data is
  16 bits and wraps after 2048 devices. A type 0 configuration request to a switch
  upstream port with another device or function number gets no reply.
* `io_read`/`io_write` test `find_region` instead of `find_io_region`;
  `io_*_words` raise `TypeError`; the callback branch of `read_io_region` uses the
  undefined name `data`; the tuple branch of `MemoryEndpoint.write_region` uses the
  undefined name `length`.
* UltraScale descriptors never carry the poisoned bit (C29). `USPcieFrame.__eq__`
  compares with the wrong class. A 64-bit request with an address below 2^32 comes back
  with the 32-bit format.
* `PcieIfSource`/`PcieIfSink` never transfer `tlp_abort` (C27).
* Segmented RAM with a number of byte lanes that is not a power of two aliases
  addresses (C28). `PsdpRamMaster.init_read`/`init_write` call undefined methods.

RTL:

* `pcie_tlp_fc_count` uses 9 of the 10 length bits (C34). `pcie_ptile_fc_counter` does not
  clear its increment register under TDM (C44).
* `dma_ram_demux_*`: a select value that is not below `PORTS` is accepted and never
  forwarded.
* `irq_rate_limit`: a deadline that wraps expires early (C42); the scan starves under
  continuous requests.
* `pcie_msix`: the pending bit array is written at `index>>5` and read at
  `index>>6`; the scan is stuck on a pending masked vector; stale group (C43).
* `dma_if_pcie_wr`: TLPs of 4096 bytes are broken (C40); status before the last
  transfer is accepted when sequence numbers are off (C41); `TX_LIMIT` is exceeded
  (C51).
* `pcie_us_axis_rc_demux`, `pcie_us_axis_cq_demux`: after a packet has been dropped under
  back-pressure, the first word of the next packet is accepted and lost. With 64 bits, the last
  word of a dropped packet is sent as a packet of its own, and the first register
  survives a reset (C52).
* `pcie_us_msi`, `pcie_s10_msi`: an edge that comes while a message of the same vector is in
  flight is lost (C54); a grant survives a period in which MSI is disabled, so a vector that has
  been masked meanwhile is still signalled (C55).
* `dma_client_axis_source`: a descriptor of length 0 gives a packet of `2^CYCLE_COUNT_WIDTH` words; with a
  stream of one byte the wrong bytes are sent, because `PART_OFFSET_WIDTH` is 1 instead of 0 (C56).
* `dma_client_axis_sink`: a descriptor of length 0 takes up to `2^CYCLE_COUNT_WIDTH` words and writes all of them,
  beyond the buffer; with a stream of one byte the bytes are written to wrong lanes (C58).
* `dma_if_pcie_rd`: with a maximum read request size of 4096 bytes, a descriptor whose rest is exactly an aligned 4 KB
  page is followed by a request for the next page (C60); the sum of length and offset wraps in `max(LEN_WIDTH, 13)`
  bits, so the first request of a very long descriptor can exceed the maximum request size (C60). The register after
  the completion state machine (`ram_wr_cmd_valid_pipe_reg`) is not reset, so after a reset of one cycle old data can be written to the RAM (C63). A duplicate completion in the cycle after the
  one that finishes a request is taken as well, no error is reported, and the tag is freed twice and then used for two
  requests (C61, C62). With fewer than 32 tags the request counters of the operation table (`PCIE_TAG_WIDTH+1` bits) can wrap, because
  tags are free before their data is written: a descriptor with nine requests gets a success status before its failed requests
  are dealt with, and a second status after them (C64). The output FIFO pointers have one bit less than
  the full flag assumes; only the gating at half full prevents an overflow.
* `pcie_axil_master_minimal`, line 442: in `fmt[0] && type & 5'b11000 == 5'b10000` the comparison binds
  tighter than `&`, so a message is never recognised. It gets a completion with status unsupported request
  and is reported as a correctable error, although messages are posted (`C67_message_fails`,
  `C68_message_fails`). `pcie_axil_master.v` line 550 and `pcie_axi_master_rd.v` line 430 have the same
  expression (`C76_message_fails` for the second one). Further reading notes: completions without data have byte count and
  lower address 0, and a read address can be sent before the response to an earlier write, so that an AXI
  slave may answer with the old value.
* `pcie_axi_master_wr`: TLPs that need more than one burst (longer than `AXI_MAX_BURST_LEN` transfers, counted from the aligned
  address) are not handled. Line 405 counts the input words of a following burst one too low when it starts on a word boundary, so its
  last data transfer takes the data from the input without a handshake, valid or not (`C70_split_fails`). Line 415 offers the next burst
  although the previous one may not have been accepted, and replaces its address (`C71_overwritten_fails`). Line 293 compares the length
  without the offset, so that a burst can have one transfer more than the maximum (`C71_length_fails`); with the default of 256 and 64
  bits `awlen` wraps to 0 for a write of 512 DWORDs to an address that is not aligned, and nothing is written (`C73_wrap_fails`).
* `pcie_axi_master_rd`: lines 689-692, 755-758 and 798-801 start the next completion as one with data, without a look at its status. An
  unsupported request behind another completion takes the data of the next read, and the module waits forever for data
  (`C77_unsupported_fails`). After an unsupported request the input stays ready for one cycle, and the request taken then replaces tag
  and status of the command if it still waits (`C74_replaced_fails`). The completion for an unsupported request has the lower address
  of the read before it (`C74_lower_fails`). `arlen` wraps to 0 for a read of 512 DWORDs from an address that is not aligned, with 64
  bits, a burst length of 256 and a maximum payload of 2048 bytes (`C75_wrap_fails`); bursts for addresses that are not aligned can
  have one transfer more than the maximum (`C75_length_fails`), and with a maximum that is no power of two bursts can be longer still,
  because line 119 rounds up (`C75_power_fails`). Messages are taken for unsupported requests (line 430, `C76_message_fails`).
- `pcie_tlp_fifo` releases a TLP only when its last segment is inside. A TLP of which `DEPTH/TLP_STRB_WIDTH - 2` segments do not
  complete it therefore makes the FIFO hang: it is not ready, and shows nothing, for ever (`C83_long_fails`). The depth is not checked
  against the maximum payload. In `pcie_tlp_demux` with output FIFOs such a TLP for one
  port stops all ports (`C85_long_one_fails`).
- `pcie_tlp_mux` mixes TLPs when words have free lanes and there are three or more segments per word: when no port has a segment for
  a lane, lines 315-316 shift the flags of the last port looked at all the same, and a segment behind the free lane is then taken
  for the start of a TLP with a wrong offset (`C86_merge_fails`: a segment of port 1 within a TLP of port 0). With two segments per word the data is right, but
  `sel_tlp_seq` reports a sequence number that no TLP has (`C88_status_fails`). A word that ends within a TLP and has a free lane
  stops the multiplexer for ever, for all ports (`C87_hang`): the lanes of the register and of the input are joined without
  skipping the free one, and the next word is accepted only when the register is empty. Nothing in the module says that words must
  be full; FIFOs in front of it pack them (`pcie_tlp_fifo_mux`).
- **C89 (late answer).** `pcie_us_cfg` keeps `cfg_mgmt_read` asserted in the cycle after `cfg_mgmt_read_write_done`. A core that
  takes this as another read and finishes it while the next function is being read has its data stored for the wrong function
  (`C89_late_fails`). The theorems assume a core that sets `done` only while the read is asserted.
- **C91 (P-tile AER registers).** `pcie_ptile_cfg` writes the upper halves of the AER masks and of the AER severity at
  `tl_cfg_func*32+32 +: 16` (should be `+16`). The upper half of each function's register is never set, and the lower half of the
  register of the next function is overwritten (`C91_aer_fails`).
- **C94 (reads overtake writes).** `pcie_axi_master` gives memory reads and writes to two masters that do not wait for each other. A
  read accepted after a write to the same address can be started on AXI before the write is (`C94_order_fails`), and nothing looks at the
  write response channel. PCIe does not allow a read to pass a posted write without the relaxed ordering or ID-based ordering attributes.
- **C94 (reads block writes).** The demultiplexer in `pcie_axi_master` has one register for both masters. If completions are not accepted,
  four reads fill the read side and this register, and no write is accepted any more (`C94_block_fails`); PCIe requires that posted
  requests can pass reads, to avoid deadlocks.
- **C95 (IO requests and messages).** `pcie_us_if_cq` gives every request a 4DW format; PCIe has IO requests with 3DW headers only
  (`C95_io_fails`). The message code of a message, bits 111..104 of the descriptor, goes to `tlp_func_num`, and the byte of the header where it
  belongs holds byte enables (`C95_message_fails`).
- **C96 (byte enables with straddling).** `pcie_us_if_cq` line 271 takes the byte enables of segment 1 from the fields for the second
  packet that starts in the word. A packet that starts in the upper half behind the end of another one is the first that starts
  in this word; its header gets the wrong byte enables (`C96_byte_enables_fails`). We read PG213 (side band of the 512-bit completer request
  interface) as numbering the packets of a word in the order in which they start.
- **C98 (completions).** `pcie_us_if_cc` copies 12 bits of byte count and 10 bits of length into fields of 13 and 11 bits. In the header the
  codes for 4096 bytes and 1024 DWORDs are 0, and so are the fields of the descriptor, where 0 means 0 (`C98_large_fails`). A byte count of 4096
  occurs for the first completion of a 4096-byte read. The bit for locked completions is never set (`C98_locked_fails`).
- **C98 (requests).** `pcie_us_if_rq` takes the address from DWORDs 2 and 3 for every request. It is wrong for requests with 32-bit
  addresses, which have it in DWORD 2 (`C98_address32_fails`); the designs in the repository set `TLP_FORCE_64_BIT_ADDR`. The target
  of configuration requests is lost (`C98_config_fails`), messages come out as memory writes (`C98_message_fails`).
- **RQ input (not modelled).** The FIFO for read requests in `pcie_us_if_rq` has `1'b1` at the inputs for start and end of packet, so that with
  more than one segment these marks are set in segment 0 only. Its output is an input of the model.
- **C106 (ready latency).** The FIFOs of `pcie_ptile_if_rx` raise the watermark 28 rows before they are full. The flag is seen one cycle after the
  word that crosses it is written, and the FIFO takes no word when it is full but for one. A source that uses the whole ready latency of
  27 cycles of the P-Tile hard IP loses its last row (`C106_latency27_fails`); with 26 cycles none is lost.
- **C107 (function number).** `pcie_ptile_if_rx` reads `rx_st_func_num[seg*2 +: 2]`; the input has three bits per segment. The functions 4 to 7, and
  in segment 1 nearly all functions, come out wrong (`C107_func_fails`).
- **C105 (aborted TLPs).** `pcie_ptile_if_rx` does not read `rx_st_tlp_abort`: a TLP the hard IP marks as aborted comes out like any other.
- **C113 (transmit credits).** `pcie_ptile_fc_counter` keeps its increment between two presentations of its class, so the available credits are filled up
  in every cycle (see C44). In `pcie_ptile_if_tx` this means that more TLPs are sent than the P-Tile has credits for: `C113_credits_fails` sends six read
  requests under a limit of five.
