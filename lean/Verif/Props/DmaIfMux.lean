import Verif.Proofs.DmaIfMux
import Verif.Props.ArbMux
import Verif.Props.RamDemuxRd
import Verif.Props.RamDemuxWr
/-! C102-C104: clients sharing a DMA interface are kept apart. -/
namespace Verif.Props
open Verif Verif.Model Verif.Spec Verif.Proofs

/-- Descriptors taken from the clients have the bounds of the input signals. -/
theorem dim_bounds {α β : Type} {c : MuxCfg α β} {s : Mux α β} {is : List (MuxIn α)} {t : List (Nat × α)}
    {P : α → Prop} (hP : ∀ i ∈ is, ∀ p < c.ports, P (i.word p)) (ht : ∀ x ∈ t, x.1 < c.ports)
    (h : ∀ p < c.ports, ∃ inside : List α, inside.length ≤ 3 ∧ muxAccepted c p s is = ofPort p t ++ inside) :
    ∀ x ∈ t, P x.2 := by
  intro x hx
  obtain ⟨ins, -, e⟩ := h x.1 (ht x hx)
  have hm : x.2 ∈ muxAccepted c x.1 s is := by
    rw [e]; exact List.mem_append_left _ (mem_ofPort t x hx)
  obtain ⟨i, hi, e⟩ := mux_accepted_mem c x.1 is s x.2 hm
  rw [← e]; exact hP i hi _ (ht x hx)

theorem dim_status (c : DescMuxCfg) (hw : c.sTagWidth + clog2 c.ports ≤ c.mTagWidth) (p : Nat) (d : DmaDesc)
    (hp : p < c.ports) (ht : d.tag < 2 ^ c.sTagWidth) (error : Nat) (he : error < 2 ^ 4) :
    StatusTo c.ports p d.tag error (descStatus c false true (descConv c p d).tag error) := by
  obtain ⟨a, b, e⟩ := C36_status c p d error hp hw ht he
  exact ⟨a, b, e⟩

/-- **C102.** Clients sharing the read side of a DMA interface are kept apart. After a reset, for every
history, there are the merged list `t` of the clients' descriptors and a translation `f` such that
* the DMA interface gets the descriptors `t`, translated, each asking for the transfer the client asked
  for; the descriptors of each client are among them in order, each once, except for at most three still
  inside;
* a status with the tag of a translated descriptor is shown to the client the descriptor is from, and to
  no other, with the tag the client gave;
* on every segment: if each RAM command of the DMA interface carries the RAM select of a descriptor it
  was given (`L` pairs the accepted commands with these descriptors), then the RAM of client `p` gets the
  commands for the descriptors of client `p` and no others, with the RAM select the client gave, in
  order, each once, except for at most two still inside; and completions are reported to the DMA
  interface in order and only after the RAMs have reported them. -/
theorem C102_routing (c : DimCfg) (hp : 0 < c.ports) (hw : c.sSel + clog2 c.ports ≤ c.mSel)
    (hwt : c.sTag + clog2 c.ports ≤ c.mTag) (s : DimRd) (r : DimRdIn) (hr : r.rst = true)
    (is : List DimRdIn) (hi : ∀ i ∈ is, i.rst = false)
    (hd : ∀ i ∈ is, ∀ p < c.ports, (i.desc p).ramSel < 2 ^ c.sSel ∧ (i.desc p).tag < 2 ^ c.sTag) :
    ∃ (t : List (Nat × DmaDesc)) (f : Nat → DmaDesc → DmaDesc),
      (∀ x ∈ t, x.1 < c.ports ∧ SameJob (f x.1 x.2) x.2) ∧
      dimRdSent c (dimRdStep c s r) is = t.map (fun x => f x.1 x.2) ∧
      (∀ p < c.ports, ∃ inside : List DmaDesc, inside.length ≤ 3 ∧
        dimRdGiven c p (dimRdStep c s r) is = ofPort p t ++ inside) ∧
      (∀ (u : DimRd) (i : DimRdIn), i.rst = false → i.stValid = true → i.stError < 16 →
        ∀ x ∈ t, i.stTag = (f x.1 x.2).tag →
          StatusTo c.ports x.1 x.2.tag i.stError (dimRdStep c u i).status) ∧
      ∀ (n : Nat) (L : List (DmaDesc × WrCmd)),
        (∀ i ∈ is, i.cmdValid n = true → ∃ d ∈ dimRdSent c (dimRdStep c s r) is, (i.cmd n).sel = d.ramSel) →
        (∀ k, ∀ p < c.ports, dimRdRamDone p n (is.take k) ≤
          (dimRdRam c p n (dimRdStep c s r) (is.take k)).length) →
        dimRdCmds c n (dimRdStep c s r) is = L.map (fun x => { x.2 with sel := x.1.ramSel }) →
        (∀ x ∈ L, x.1 ∈ dimRdSent c (dimRdStep c s r) is) →
        ∃ M : List ((Nat × DmaDesc) × WrCmd),
          L = M.map (fun x => (f x.1.1 x.1.2, x.2)) ∧ (∀ x ∈ M, x.1 ∈ t) ∧
          (∀ p, ∃ inside : List WrCmd, inside.length ≤ 2 ∧
            wrOwn p M = dimRdRam c p n (dimRdStep c s r) is ++ inside) ∧
          dimRdDone c n (dimRdStep c s r) is ≤ M.length ∧
          ∀ p < c.ports, (wrOwn p (M.take (dimRdDone c n (dimRdStep c s r) is))).length ≤ dimRdRamDone p n is := by
  have him : ∀ i ∈ is.map (fun i => dimRdMuxIn i.toDimDescIn), i.rst = false := by
    intro i hm
    obtain ⟨j, hj, rfl⟩ := List.mem_map.mp hm
    exact hi j hj
  obtain ⟨t, e1, e2, e3⟩ := C36_merge c.rdDesc hp s.mux (dimRdMuxIn r.toDimDescIn) hr
    (is.map fun i => dimRdMuxIn i.toDimDescIn) him
  have hb : ∀ x ∈ t, x.2.ramSel < 2 ^ c.sSel ∧ x.2.tag < 2 ^ c.sTag ∧ x.2.immEn = false := by
    refine dim_bounds (c := c.rdDesc.mux) (P := fun d : DmaDesc => d.ramSel < 2 ^ c.sSel ∧ d.tag < 2 ^ c.sTag ∧ d.immEn = false) ?_ e2 e3
    intro i hm p hpp
    obtain ⟨j, hj, rfl⟩ := List.mem_map.mp hm
    exact ⟨(hd j hj p hpp).1, (hd j hj p hpp).2, rfl⟩
  have hsent : dimRdSent c (dimRdStep c s r) is = t.map (fun x => descConv c.rdDesc x.1 x.2) := by
    rw [dimRdSent_eq]; exact e1
  refine ⟨t, descConv c.rdDesc, fun x hx => ⟨e2 x hx, rfl, rfl, rfl, fun h => ?_, ?_⟩, hsent,
    fun p hpp => by rw [dimRdGiven_eq]; exact e3 p hpp, ?_, ?_⟩
  · rw [(hb x hx).2.2] at h; cases h
  · rw [(hb x hx).2.2]; rfl
  · intro u i h1 h2 h3 x hx hxt
    have := dim_status c.rdDesc hwt x.1 x.2 (e2 x hx) (hb x hx).2.1 i.stError h3
    simp only [dimRdStep, h1, h2, hxt]
    exact this
  · intro n L hoff hdone hL hmem
    rw [hsent] at hmem hoff
    obtain ⟨M, eM, hM⟩ := dim_pairs (descConv c.rdDesc) t L hmem
    have hMb : ∀ x ∈ M, x.1.1 < c.ports ∧ x.1.2.ramSel < 2 ^ c.sSel := fun x hx =>
      ⟨e2 _ (hM x hx), (hb _ (hM x hx)).1⟩
    have hacc : wrAccepted c.demux (wrDemuxStep c.demux (s.dx n) (dimRdDxIn n r)) (is.map (dimRdDxIn n)) =
        M.map fun x => { x.2 with sel := (descConv c.rdDesc x.1.1 x.1.2).ramSel } := by
      have := dimRdCmds_eq c n is (dimRdStep c s r)
      rw [hL, eM, List.map_map] at this
      exact this.symm
    have hid : ∀ i ∈ is.map (dimRdDxIn n), i.rst = false := by
      intro i hm
      obtain ⟨j, hj, rfl⟩ := List.mem_map.mp hm
      exact hi j hj
    have hsok : WrSelOk c.demux (is.map (dimRdDxIn n)) := by
      intro i hm hv
      obtain ⟨j, hj, rfl⟩ := List.mem_map.mp hm
      obtain ⟨d, hdm, hde⟩ := hoff j hj hv
      obtain ⟨x, hx, rfl⟩ := List.mem_map.mp hdm
      show selPort c.demux (j.cmd n).sel < c.ports
      rw [hde]
      have := (dim_route c.rdDesc rfl x.1 x.2 (e2 x hx) hw (hb x hx).1).1
      exact Nat.lt_of_le_of_lt (Nat.le_of_eq this) (e2 x hx)
    have hdn : ∀ k, ∀ p < c.demux.ports, wrPortDone p ((is.map (dimRdDxIn n)).take k) ≤
        (wrForwarded c.demux p (wrDemuxStep c.demux (s.dx n) (dimRdDxIn n r))
          ((is.map (dimRdDxIn n)).take k)).length := by
      intro k p hpp
      have := hdone k p hpp
      rw [dimRdRamDone_eq, dimRdRam_eq, List.map_take] at this
      exact this
    refine ⟨M, eM, hM, fun p => ?_, ?_⟩
    · obtain ⟨ins, h1, h2⟩ := C38_forwarded c.demux (s.dx n) (dimRdDxIn n r) hr _ hid hsok hdn p
      refine ⟨ins, h1, ?_⟩
      rw [hacc] at h2
      have h3 := wrFor_own c.rdDesc rfl hw p M hMb
      rw [← h3, dimRdRam_eq]
      exact h2
    · obtain ⟨o1, o2⟩ := C38_order c.demux (s.dx n) (dimRdDxIn n r) hr _ hid hsok hdn
      rw [hacc] at o1 o2
      rw [List.length_map] at o1
      have ed : dimRdDone c n (dimRdStep c s r) is = wrReported c.demux
          (wrDemuxStep c.demux (s.dx n) (dimRdDxIn n r)) (is.map (dimRdDxIn n)) := dimRdDone_eq c n is _
      rw [ed]
      refine ⟨o1, fun p hpp => ?_⟩
      have h4 := o2 p hpp
      rw [← List.map_take] at h4
      have h3 := wrFor_own c.rdDesc rfl hw p (M.take (wrReported c.demux
          (wrDemuxStep c.demux (s.dx n) (dimRdDxIn n r)) (is.map (dimRdDxIn n))))
        (fun x hx => hMb x (List.mem_of_mem_take hx))
      rw [← h3, dimRdRamDone_eq]
      exact h4

/-- **C103.** Clients sharing the write side of a DMA interface are kept apart. As C102, for read
commands; in addition, if segment `n` of the RAM of each client `p` answers its commands in order,
command `x` with `g p x`, then the DMA interface gets the answers to its commands in the order of the
commands, each the answer of the RAM of the client whose descriptor the command was issued for. -/
theorem C103_routing {δ : Type} (c : DimCfg) (hp : 0 < c.ports) (hw : c.sSel + clog2 c.ports ≤ c.mSel)
    (hwt : c.sTag + clog2 c.ports ≤ c.mTag) (s : DimWr δ) (r : DimWrIn δ) (hr : r.rst = true)
    (is : List (DimWrIn δ)) (hi : ∀ i ∈ is, i.rst = false)
    (hd : ∀ i ∈ is, ∀ p < c.ports, (i.desc p).ramSel < 2 ^ c.sSel ∧ (i.desc p).tag < 2 ^ c.sTag)
    (hm : c.imm = false → ∀ i ∈ is, ∀ p < c.ports, (i.desc p).immEn = false) :
    ∃ (t : List (Nat × DmaDesc)) (f : Nat → DmaDesc → DmaDesc),
      (∀ x ∈ t, x.1 < c.ports ∧ SameJob (f x.1 x.2) x.2) ∧
      dimWrSent c (dimWrStep c s r) is = t.map (fun x => f x.1 x.2) ∧
      (∀ p < c.ports, ∃ inside : List DmaDesc, inside.length ≤ 3 ∧
        dimWrGiven c p (dimWrStep c s r) is = ofPort p t ++ inside) ∧
      (∀ (u : DimWr δ) (i : DimWrIn δ), i.rst = false → i.stValid = true → i.stError < 16 →
        ∀ x ∈ t, i.stTag = (f x.1 x.2).tag →
          StatusTo c.ports x.1 x.2.tag i.stError (dimWrStep c u i).status) ∧
      ∀ (n : Nat) (L : List (DmaDesc × RdCmd)),
        (∀ i ∈ is, i.cmdValid n = true → ∃ d ∈ dimWrSent c (dimWrStep c s r) is, (i.cmd n).sel = d.ramSel) →
        dimWrCmds c n (dimWrStep c s r) is = L.map (fun x => { x.2 with sel := x.1.ramSel }) →
        (∀ x ∈ L, x.1 ∈ dimWrSent c (dimWrStep c s r) is) →
        ∃ M : List ((Nat × DmaDesc) × RdCmd),
          L = M.map (fun x => (f x.1.1 x.1.2, x.2)) ∧ (∀ x ∈ M, x.1 ∈ t) ∧
          (∀ p, ∃ inside : List RdCmd, inside.length ≤ 2 ∧
            rdOwn p M = dimWrRam c p n (dimWrStep c s r) is ++ inside) ∧
          ∀ g : Nat → RdCmd → δ,
            (∀ p, dimWrTaken c p n (dimWrStep c s r) is <+: (dimWrRam c p n (dimWrStep c s r) is).map (g p)) →
            dimWrResp c n (dimWrStep c s r) is <+:
              M.map fun x => g x.1.1 { x.2 with sel := x.1.2.ramSel } := by
  have him : ∀ i ∈ is.map (fun i => dimWrMuxIn i.toDimDescIn), i.rst = false := by
    intro i hm
    obtain ⟨j, hj, rfl⟩ := List.mem_map.mp hm
    exact hi j hj
  obtain ⟨t, e1, e2, e3⟩ := C36_merge c.desc hp s.mux (dimWrMuxIn r.toDimDescIn) hr
    (is.map fun i => dimWrMuxIn i.toDimDescIn) him
  have hb : ∀ x ∈ t, x.2.ramSel < 2 ^ c.sSel ∧ x.2.tag < 2 ^ c.sTag ∧ (c.imm = false → x.2.immEn = false) := by
    refine dim_bounds (c := c.desc.mux) (P := fun d : DmaDesc => d.ramSel < 2 ^ c.sSel ∧ d.tag < 2 ^ c.sTag ∧
      (c.imm = false → d.immEn = false)) ?_ e2 e3
    intro i hm' p hpp
    obtain ⟨j, hj, rfl⟩ := List.mem_map.mp hm'
    exact ⟨(hd j hj p hpp).1, (hd j hj p hpp).2, fun h => hm h j hj p hpp⟩
  have hsent : dimWrSent c (dimWrStep c s r) is = t.map (fun x => descConv c.desc x.1 x.2) := by
    rw [dimWrSent_eq]; exact e1
  refine ⟨t, descConv c.desc, fun x hx => ⟨e2 x hx, rfl, rfl, rfl, fun h => ?_, ?_⟩, hsent,
    fun p hpp => by rw [dimWrGiven_eq]; exact e3 p hpp, ?_, ?_⟩
  · show (if c.imm then x.2.imm else 0) = x.2.imm
    cases hc : c.imm with
    | true => rfl
    | false => rw [(hb x hx).2.2 hc] at h; cases h
  · show (c.imm && x.2.immEn) = x.2.immEn
    cases hc : c.imm with
    | true => rfl
    | false => rw [(hb x hx).2.2 hc]; rfl
  · intro u i h1 h2 h3 x hx hxt
    have := dim_status c.desc hwt x.1 x.2 (e2 x hx) (hb x hx).2.1 i.stError h3
    simp only [dimWrStep, h1, h2, hxt]
    exact this
  · intro n L hoff hL hmem
    rw [hsent] at hmem hoff
    obtain ⟨M, eM, hM⟩ := dim_pairs (descConv c.desc) t L hmem
    have hMb : ∀ x ∈ M, x.1.1 < c.ports ∧ x.1.2.ramSel < 2 ^ c.sSel := fun x hx =>
      ⟨e2 _ (hM x hx), (hb _ (hM x hx)).1⟩
    have hacc : rdAccepted c.demux (rdDemuxStep c.demux (s.dx n) (dimWrDxIn n r)) (is.map (dimWrDxIn n)) =
        M.map fun x => { x.2 with sel := (descConv c.desc x.1.1 x.1.2).ramSel } := by
      have := dimWrCmds_eq c n is (dimWrStep c s r)
      rw [hL, eM, List.map_map] at this
      exact this.symm
    have hid : ∀ i ∈ is.map (dimWrDxIn n), i.rst = false := by
      intro i hm
      obtain ⟨j, hj, rfl⟩ := List.mem_map.mp hm
      exact hi j hj
    have hsok : RdSelOk c.demux (is.map (dimWrDxIn n)) := by
      intro i hm hv
      obtain ⟨j, hj, rfl⟩ := List.mem_map.mp hm
      obtain ⟨d, hdm, hde⟩ := hoff j hj hv
      obtain ⟨x, hx, rfl⟩ := List.mem_map.mp hdm
      show selPort c.demux (j.cmd n).sel < c.ports
      rw [hde]
      have := (dim_route c.desc rfl x.1 x.2 (e2 x hx) hw (hb x hx).1).1
      exact Nat.lt_of_le_of_lt (Nat.le_of_eq this) (e2 x hx)
    refine ⟨M, eM, hM, fun p => ?_, fun g hg => ?_⟩
    · obtain ⟨ins, h1, h2⟩ := C37_forwarded c.demux (s.dx n) (dimWrDxIn n r) hr _ hid hsok p
      refine ⟨ins, h1, ?_⟩
      rw [hacc] at h2
      have h3 := rdFor_own c.desc rfl hw p M hMb
      rw [← h3, dimWrRam_eq]
      exact h2
    · have h1 := C37_answers c.demux (s.dx n) (dimWrDxIn n r) hr _ hid hsok g (fun p => by
        have := hg p
        rw [dimWrTaken_eq, dimWrRam_eq] at this
        exact this)
      rw [hacc, List.map_map] at h1
      rw [dimWrResp_eq]
      refine List.IsPrefix.trans h1 (by
        rw [List.map_congr_left (g := fun x : (Nat × DmaDesc) × RdCmd =>
          g x.1.1 { x.2 with sel := x.1.2.ramSel }) ?_]
        · exact List.prefix_refl _
        · intro x hx
          obtain ⟨r1, r2⟩ := dim_route c.desc rfl x.1.1 x.1.2 (hMb x hx).1 hw (hMb x hx).2
          have r1' : selPort c.demux (descConv c.desc x.1.1 x.1.2).ramSel = x.1.1 := r1
          have r2' : (descConv c.desc x.1.1 x.1.2).ramSel % 2 ^ c.demux.sSel = x.1.2.ramSel := r2
          show g (selPort c.demux (descConv c.desc x.1.1 x.1.2).ramSel)
            ⟨(descConv c.desc x.1.1 x.1.2).ramSel % 2 ^ c.demux.sSel, x.2.addr⟩ = _
          rw [r1', r2'])

/-- **C102.** Nothing is kept back. When the clients offer no further descriptors and the DMA interface
is ready, after `3 PORTS + 4` cycles it has all of them. When the DMA interface issues no further RAM
commands, the RAMs are ready, and each RAM reports a completion whenever it has taken more commands than
it has completed, after 103 cycles every command has been taken by the RAM of the client it belongs to
and exactly one completion has been reported for each. -/
theorem C102_drain (c : DimCfg) (hp : 0 < c.ports) (hw : c.sSel + clog2 c.ports ≤ c.mSel)
    (s : DimRd) (r : DimRdIn) (hr : r.rst = true)
    (is quiet : List DimRdIn) (hi : ∀ i ∈ is, i.rst = false) (hq : ∀ i ∈ quiet, i.rst = false)
    (hd : ∀ i ∈ is, ∀ p < c.ports, (i.desc p).ramSel < 2 ^ c.sSel)
    (hdq : ∀ i ∈ quiet, (∀ p, i.dvalid p = false) ∧ i.dready = true) (hl : 3 * c.ports + 4 ≤ quiet.length) :
    ∃ (t : List (Nat × DmaDesc)) (f : Nat → DmaDesc → DmaDesc),
      (∀ x ∈ t, x.1 < c.ports ∧ SameJob (f x.1 x.2) x.2) ∧
      dimRdSent c (dimRdStep c s r) (is ++ quiet) = t.map (fun x => f x.1 x.2) ∧
      (∀ p < c.ports, ofPort p t = dimRdGiven c p (dimRdStep c s r) is) ∧
      ∀ (n : Nat) (L : List (DmaDesc × WrCmd)),
        (∀ i ∈ is, i.cmdValid n = true →
          ∃ d ∈ dimRdSent c (dimRdStep c s r) (is ++ quiet), (i.cmd n).sel = d.ramSel) →
        (∀ i ∈ quiet, i.cmdValid n = false ∧ ∀ p < c.ports, i.ramReady p n = true) →
        (∀ k, ∀ p < c.ports, dimRdRamDone p n ((is ++ quiet).take k) ≤
          (dimRdRam c p n (dimRdStep c s r) ((is ++ quiet).take k)).length) →
        (∀ k i, quiet[k]? = some i → ∀ p < c.ports, dimRdRamDone p n (is ++ quiet.take k) <
          (dimRdRam c p n (dimRdStep c s r) (is ++ quiet.take k)).length → i.ramDone p n = true) →
        103 ≤ quiet.length →
        dimRdCmds c n (dimRdStep c s r) is = L.map (fun x => { x.2 with sel := x.1.ramSel }) →
        (∀ x ∈ L, x.1 ∈ dimRdSent c (dimRdStep c s r) (is ++ quiet)) →
        ∃ M : List ((Nat × DmaDesc) × WrCmd),
          L = M.map (fun x => (f x.1.1 x.1.2, x.2)) ∧ (∀ x ∈ M, x.1 ∈ t) ∧
          (∀ p, dimRdRam c p n (dimRdStep c s r) (is ++ quiet) = wrOwn p M) ∧
          dimRdDone c n (dimRdStep c s r) (is ++ quiet) = M.length := by
  have him : ∀ i ∈ is.map (fun i => dimRdMuxIn i.toDimDescIn), i.rst = false := by
    intro i hm
    obtain ⟨j, hj, rfl⟩ := List.mem_map.mp hm
    exact hi j hj
  have hqm : ∀ i ∈ quiet.map (fun i => dimRdMuxIn i.toDimDescIn),
      i.rst = false ∧ (∀ p, i.tvalid p = false) ∧ i.tready = true := by
    intro i hm
    obtain ⟨j, hj, rfl⟩ := List.mem_map.mp hm
    exact ⟨hq j hj, (hdq j hj).1, (hdq j hj).2⟩
  obtain ⟨t, e1, e2, e3⟩ := C36_drain c.rdDesc hp s.mux (dimRdMuxIn r.toDimDescIn) hr
    (is.map fun i => dimRdMuxIn i.toDimDescIn) (quiet.map fun i => dimRdMuxIn i.toDimDescIn) him hqm
    (by rw [List.length_map]; exact hl)
  have hb : ∀ x ∈ t, x.2.ramSel < 2 ^ c.sSel ∧ x.2.immEn = false := by
    refine dim_bounds (c := c.rdDesc.mux) (P := fun d : DmaDesc => d.ramSel < 2 ^ c.sSel ∧ d.immEn = false) (is := is.map fun i =>
      dimRdMuxIn i.toDimDescIn) ?_ e2 (fun p hpp => ⟨[], by simp, by rw [List.append_nil]; exact (e3 p hpp).symm⟩)
    intro i hm p hpp
    obtain ⟨j, hj, rfl⟩ := List.mem_map.mp hm
    exact ⟨hd j hj p hpp, rfl⟩
  have hsent : dimRdSent c (dimRdStep c s r) (is ++ quiet) = t.map (fun x => descConv c.rdDesc x.1 x.2) := by
    rw [dimRdSent_eq, List.map_append]; exact e1
  refine ⟨t, descConv c.rdDesc, fun x hx => ⟨e2 x hx, rfl, rfl, rfl, fun h => ?_, ?_⟩, hsent,
    fun p hpp => by rw [dimRdGiven_eq]; exact e3 p hpp, ?_⟩
  · rw [(hb x hx).2] at h; cases h
  · rw [(hb x hx).2]; rfl
  intro n L hoff hqc hdone hans hlen hL hmem
  rw [hsent] at hmem hoff
  obtain ⟨M, eM, hM⟩ := dim_pairs (descConv c.rdDesc) t L hmem
  have hMb : ∀ x ∈ M, x.1.1 < c.ports ∧ x.1.2.ramSel < 2 ^ c.sSel := fun x hx =>
    ⟨e2 _ (hM x hx), (hb _ (hM x hx)).1⟩
  have hacc : wrAccepted c.demux (wrDemuxStep c.demux (s.dx n) (dimRdDxIn n r)) (is.map (dimRdDxIn n)) =
      M.map fun x => { x.2 with sel := (descConv c.rdDesc x.1.1 x.1.2).ramSel } := by
    have := dimRdCmds_eq c n is (dimRdStep c s r)
    rw [hL, eM, List.map_map] at this
    exact this.symm
  have hid : ∀ i ∈ is.map (dimRdDxIn n), i.rst = false := by
    intro i hm
    obtain ⟨j, hj, rfl⟩ := List.mem_map.mp hm
    exact hi j hj
  have hsok : WrSelOk c.demux (is.map (dimRdDxIn n)) := by
    intro i hm hv
    obtain ⟨j, hj, rfl⟩ := List.mem_map.mp hm
    obtain ⟨d, hdm, hde⟩ := hoff j hj hv
    obtain ⟨x, hx, rfl⟩ := List.mem_map.mp hdm
    show selPort c.demux (j.cmd n).sel < c.ports
    rw [hde]
    have := (dim_route c.rdDesc rfl x.1 x.2 (e2 x hx) hw (hb x hx).1).1
    exact Nat.lt_of_le_of_lt (Nat.le_of_eq this) (e2 x hx)
  obtain ⟨o1, o2⟩ := C38_drain c.demux (s.dx n) (dimRdDxIn n r) hr (is.map (dimRdDxIn n))
    (quiet.map (dimRdDxIn n)) hid hsok (by
      intro i hm
      obtain ⟨j, hj, rfl⟩ := List.mem_map.mp hm
      exact ⟨hq j hj, (hqc j hj).1, (hqc j hj).2⟩) (by
      intro k p hpp
      have := hdone k p hpp
      rw [dimRdRamDone_eq, dimRdRam_eq, List.map_take, List.map_append] at this
      exact this) (by
      intro k i hk p hpp hlt
      rw [List.getElem?_map] at hk
      obtain ⟨j, hj, rfl⟩ := Option.map_eq_some_iff.mp hk
      refine hans k j hj p hpp ?_
      rw [dimRdRamDone_eq, dimRdRam_eq, List.map_append, List.map_take]
      exact hlt) (by rw [List.length_map]; exact hlen)
  rw [hacc] at o1 o2
  refine ⟨M, eM, hM, fun p => ?_, ?_⟩
  · have h3 := wrFor_own c.rdDesc rfl hw p M hMb
    rw [← h3, dimRdRam_eq, List.map_append]
    exact o1 p
  · rw [dimRdDone_eq, List.map_append]
    rw [List.length_map] at o2
    exact o2

/-- **C103.** Nothing is kept back: as C102, where each RAM offers a response whenever it has taken more
commands than it has answered; after 183 cycles every command has been taken by the RAM of the client it
belongs to and has its response delivered. -/
theorem C103_drain {δ : Type} (c : DimCfg) (hp : 0 < c.ports) (hw : c.sSel + clog2 c.ports ≤ c.mSel)
    (s : DimWr δ) (r : DimWrIn δ) (hr : r.rst = true)
    (is quiet : List (DimWrIn δ)) (hi : ∀ i ∈ is, i.rst = false) (hq : ∀ i ∈ quiet, i.rst = false)
    (hd : ∀ i ∈ is, ∀ p < c.ports, (i.desc p).ramSel < 2 ^ c.sSel)
    (hm : c.imm = false → ∀ i ∈ is, ∀ p < c.ports, (i.desc p).immEn = false)
    (hdq : ∀ i ∈ quiet, (∀ p, i.dvalid p = false) ∧ i.dready = true) (hl : 3 * c.ports + 4 ≤ quiet.length) :
    ∃ (t : List (Nat × DmaDesc)) (f : Nat → DmaDesc → DmaDesc),
      (∀ x ∈ t, x.1 < c.ports ∧ SameJob (f x.1 x.2) x.2) ∧
      dimWrSent c (dimWrStep c s r) (is ++ quiet) = t.map (fun x => f x.1 x.2) ∧
      (∀ p < c.ports, ofPort p t = dimWrGiven c p (dimWrStep c s r) is) ∧
      ∀ (n : Nat) (L : List (DmaDesc × RdCmd)),
        (∀ i ∈ is, i.cmdValid n = true →
          ∃ d ∈ dimWrSent c (dimWrStep c s r) (is ++ quiet), (i.cmd n).sel = d.ramSel) →
        (∀ i ∈ quiet, i.cmdValid n = false ∧ (∀ p < c.ports, i.ramReady p n = true) ∧ i.respReady n = true) →
        (∀ k i, quiet[k]? = some i → ∀ p < c.ports,
          (dimWrTaken c p n (dimWrStep c s r) (is ++ quiet.take k)).length <
            (dimWrRam c p n (dimWrStep c s r) (is ++ quiet.take k)).length → i.respValid p n = true) →
        183 ≤ quiet.length →
        dimWrCmds c n (dimWrStep c s r) is = L.map (fun x => { x.2 with sel := x.1.ramSel }) →
        (∀ x ∈ L, x.1 ∈ dimWrSent c (dimWrStep c s r) (is ++ quiet)) →
        ∃ M : List ((Nat × DmaDesc) × RdCmd),
          L = M.map (fun x => (f x.1.1 x.1.2, x.2)) ∧ (∀ x ∈ M, x.1 ∈ t) ∧
          (∀ p, dimWrRam c p n (dimWrStep c s r) (is ++ quiet) = rdOwn p M) ∧
          (dimWrResp c n (dimWrStep c s r) (is ++ quiet)).length = M.length := by
  have him : ∀ i ∈ is.map (fun i => dimWrMuxIn i.toDimDescIn), i.rst = false := by
    intro i hm
    obtain ⟨j, hj, rfl⟩ := List.mem_map.mp hm
    exact hi j hj
  have hqm : ∀ i ∈ quiet.map (fun i => dimWrMuxIn i.toDimDescIn),
      i.rst = false ∧ (∀ p, i.tvalid p = false) ∧ i.tready = true := by
    intro i hm
    obtain ⟨j, hj, rfl⟩ := List.mem_map.mp hm
    exact ⟨hq j hj, (hdq j hj).1, (hdq j hj).2⟩
  obtain ⟨t, e1, e2, e3⟩ := C36_drain c.desc hp s.mux (dimWrMuxIn r.toDimDescIn) hr
    (is.map fun i => dimWrMuxIn i.toDimDescIn) (quiet.map fun i => dimWrMuxIn i.toDimDescIn) him hqm
    (by rw [List.length_map]; exact hl)
  have hb : ∀ x ∈ t, x.2.ramSel < 2 ^ c.sSel ∧ (c.imm = false → x.2.immEn = false) := by
    refine dim_bounds (c := c.desc.mux) (P := fun d : DmaDesc => d.ramSel < 2 ^ c.sSel ∧ (c.imm = false → d.immEn = false))
      (is := is.map fun i => dimWrMuxIn i.toDimDescIn) ?_ e2
      (fun p hpp => ⟨[], by simp, by rw [List.append_nil]; exact (e3 p hpp).symm⟩)
    intro i hm' p hpp
    obtain ⟨j, hj, rfl⟩ := List.mem_map.mp hm'
    exact ⟨hd j hj p hpp, fun h => hm h j hj p hpp⟩
  have hsent : dimWrSent c (dimWrStep c s r) (is ++ quiet) = t.map (fun x => descConv c.desc x.1 x.2) := by
    rw [dimWrSent_eq, List.map_append]; exact e1
  refine ⟨t, descConv c.desc, fun x hx => ⟨e2 x hx, rfl, rfl, rfl, fun h => ?_, ?_⟩, hsent,
    fun p hpp => by rw [dimWrGiven_eq]; exact e3 p hpp, ?_⟩
  · show (if c.imm then x.2.imm else 0) = x.2.imm
    cases hc : c.imm with
    | true => rfl
    | false => rw [(hb x hx).2 hc] at h; cases h
  · show (c.imm && x.2.immEn) = x.2.immEn
    cases hc : c.imm with
    | true => rfl
    | false => rw [(hb x hx).2 hc]; rfl
  intro n L hoff hqc hans hlen hL hmem
  rw [hsent] at hmem hoff
  obtain ⟨M, eM, hM⟩ := dim_pairs (descConv c.desc) t L hmem
  have hMb : ∀ x ∈ M, x.1.1 < c.ports ∧ x.1.2.ramSel < 2 ^ c.sSel := fun x hx =>
    ⟨e2 _ (hM x hx), (hb _ (hM x hx)).1⟩
  have hacc : rdAccepted c.demux (rdDemuxStep c.demux (s.dx n) (dimWrDxIn n r)) (is.map (dimWrDxIn n)) =
      M.map fun x => { x.2 with sel := (descConv c.desc x.1.1 x.1.2).ramSel } := by
    have := dimWrCmds_eq c n is (dimWrStep c s r)
    rw [hL, eM, List.map_map] at this
    exact this.symm
  have hid : ∀ i ∈ is.map (dimWrDxIn n), i.rst = false := by
    intro i hm
    obtain ⟨j, hj, rfl⟩ := List.mem_map.mp hm
    exact hi j hj
  have hsok : RdSelOk c.demux (is.map (dimWrDxIn n)) := by
    intro i hm hv
    obtain ⟨j, hj, rfl⟩ := List.mem_map.mp hm
    obtain ⟨d, hdm, hde⟩ := hoff j hj hv
    obtain ⟨x, hx, rfl⟩ := List.mem_map.mp hdm
    show selPort c.demux (j.cmd n).sel < c.ports
    rw [hde]
    have := (dim_route c.desc rfl x.1 x.2 (e2 x hx) hw (hb x hx).1).1
    exact Nat.lt_of_le_of_lt (Nat.le_of_eq this) (e2 x hx)
  obtain ⟨o1, o2⟩ := C37_drain c.demux (s.dx n) (dimWrDxIn n r) hr (is.map (dimWrDxIn n))
    (quiet.map (dimWrDxIn n)) hid hsok (by
      intro i hm
      obtain ⟨j, hj, rfl⟩ := List.mem_map.mp hm
      exact ⟨hq j hj, (hqc j hj).1, (hqc j hj).2.1, (hqc j hj).2.2⟩) (by
      intro k i hk p hpp hlt
      rw [List.getElem?_map] at hk
      obtain ⟨j, hj, rfl⟩ := Option.map_eq_some_iff.mp hk
      refine hans k j hj p hpp ?_
      rw [dimWrTaken_eq, dimWrRam_eq, List.map_append, List.map_take]
      exact hlt) (by rw [List.length_map]; exact hlen)
  rw [hacc] at o1 o2
  refine ⟨M, eM, hM, fun p => ?_, ?_⟩
  · have h3 := rdFor_own c.desc rfl hw p M hMb
    rw [← h3, dimWrRam_eq, List.map_append]
    exact o1 p
  · rw [dimWrResp_eq, List.map_append]
    rw [List.length_map] at o2
    exact o2

/-! ### The descriptor multiplexer of the AXI DMA engine -/

/-- **C104.** After a reset, for every history: the output is a merge of what the ports have handed over;
each descriptor leaves once, in the order of its port, with at most three of a port still inside, and with
its addresses and length unchanged; a status with the tag of the descriptor that leaves is shown to the
port it is from, and to no other, with the tag given there. -/
theorem C104_merge (c : AxiDescMuxCfg) (hp : 0 < c.ports) (hw : c.sTag + clog2 c.ports ≤ c.mTag)
    (s : Mux AxiDmaDesc AxiDmaDesc) (r : MuxIn AxiDmaDesc) (hr : r.rst = true) (is : List (MuxIn AxiDmaDesc))
    (hi : ∀ i ∈ is, i.rst = false) (hd : ∀ i ∈ is, ∀ p < c.ports, (i.word p).tag < 2 ^ c.sTag) :
    ∃ (t : List (Nat × AxiDmaDesc)) (f : Nat → Nat → Nat),
      muxEmitted c.mux (muxStep c.mux s r) is = t.map (fun x => { x.2 with tag := f x.1 x.2.tag }) ∧
      (∀ x ∈ t, x.1 < c.ports ∧ ∀ error < 16,
        StatusTo c.ports x.1 x.2.tag error (axiDescStatus c false true (f x.1 x.2.tag) error)) ∧
      ∀ p < c.ports, ∃ inside : List AxiDmaDesc, inside.length ≤ 3 ∧
        muxAccepted c.mux p (muxStep c.mux s r) is = ofPort p t ++ inside := by
  obtain ⟨t, h⟩ := mux_run c.mux hp is _ _ _ _ hi (mux_reset c.mux s r hr)
  simp only [List.nil_append] at h
  obtain ⟨t1, t2, rfl, e1, e2⟩ := List.append_eq_map_iff.mp h.out
  have e3 : ∀ p < c.ports, ∃ inside : List AxiDmaDesc, inside.length ≤ 3 ∧
      muxAccepted c.mux p (muxStep c.mux s r) is = ofPort p t1 ++ inside := by
    intro p hpp
    refine ⟨ofPort p t2 ++ _, ?_, by rw [h.inp p hpp, ofPort_append, List.append_assoc]⟩
    have h1 : (ofPort p t2).length ≤ t2.length := by
      rw [ofPort, List.length_map]; exact List.length_filter_le ..
    have h2 : t2.length ≤ 2 := by
      have := congrArg List.length e2
      rw [List.length_map] at this
      rw [this]; exact skidQ_length _
    have h3 : (if (muxRun c.mux (muxStep c.mux s r) is).valid p then
        [(muxRun c.mux (muxStep c.mux s r) is).reg p] else []).length ≤ 1 := by split <;> simp
    rw [List.length_append]; omega
  have hpt : ∀ x ∈ t1, x.1 < c.ports := fun x hx => h.ports x (List.mem_append_left _ hx)
  have hb : ∀ x ∈ t1, x.2.tag < 2 ^ c.sTag :=
    dim_bounds (c := c.mux) (P := fun d : AxiDmaDesc => d.tag < 2 ^ c.sTag) hd hpt e3
  refine ⟨t1, fun p tag => (axiDescConv c p ⟨0, 0, 0, tag⟩).tag, e1.symm, fun x hx => ⟨hpt x hx, ?_⟩, e3⟩
  intro error he
  exact dim_status ⟨c.ports, false, 0, 0, false, c.sTag, c.mTag, c.roundRobin, c.lsb⟩ hw x.1
    ⟨0, 0, 0, 0, false, 0, x.2.tag⟩ (hpt x hx) (hb x hx) error he

/-- **C104.** No descriptor is kept back: once no port offers one and the output is ready, after
`3 PORTS + 4` cycles every descriptor handed over has come out. -/
theorem C104_drain (c : AxiDescMuxCfg) (hp : 0 < c.ports)
    (s : Mux AxiDmaDesc AxiDmaDesc) (r : MuxIn AxiDmaDesc) (hr : r.rst = true)
    (is quiet : List (MuxIn AxiDmaDesc)) (hi : ∀ i ∈ is, i.rst = false)
    (hq : ∀ i ∈ quiet, i.rst = false ∧ (∀ p, i.tvalid p = false) ∧ i.tready = true)
    (hl : 3 * c.ports + 4 ≤ quiet.length) :
    ∃ (t : List (Nat × AxiDmaDesc)) (f : Nat → Nat → Nat),
      muxEmitted c.mux (muxStep c.mux s r) (is ++ quiet) = t.map (fun x => { x.2 with tag := f x.1 x.2.tag }) ∧
      (∀ x ∈ t, x.1 < c.ports) ∧
      ∀ p < c.ports, ofPort p t = muxAccepted c.mux p (muxStep c.mux s r) is := by
  obtain ⟨t, h⟩ := mux_run c.mux hp is _ _ _ _ hi (mux_reset c.mux s r hr)
  simp only [List.nil_append] at h
  rw [muxEmitted_append]
  obtain ⟨t', a, b, -, d⟩ := mux_drain c.mux hp quiet _ _ _ _ hq h (fun p _ w _ => rfl) hl
  exact ⟨t', fun p tag => (axiDescConv c p ⟨0, 0, 0, tag⟩).tag, a, b, d⟩

/-! ### No status without a cause -/

/-- **C102.** In every state: in a cycle in which the DMA interface gives no status, or during a reset, no client is shown one. -/
theorem C102_no_status (c : DimCfg) (s : DimRd) (i : DimRdIn) (h : i.stValid = false ∨ i.rst = true) :
    ∀ p, (dimRdStep c s i).status.valid.testBit p = false := by
  intro p
  rcases h with h | h <;> simp [dimRdStep, descStatus, h]

/-- **C103.** The same for the write side. -/
theorem C103_no_status {δ : Type} (c : DimCfg) (s : DimWr δ) (i : DimWrIn δ) (h : i.stValid = false ∨ i.rst = true) :
    ∀ p, (dimWrStep c s i).status.valid.testBit p = false := by
  intro p
  rcases h with h | h <;> simp [dimWrStep, descStatus, h]

/-- **C104.** The same for the descriptor multiplexer of the AXI DMA engine. -/
theorem C104_no_status (c : AxiDescMuxCfg) (rst valid : Bool) (tag error : Nat) (h : valid = false ∨ rst = true) :
    ∀ p, (axiDescStatus c rst valid tag error).valid.testBit p = false := by
  intro p
  rcases h with h | h <;> simp [axiDescStatus, h]

/-- Four ports: with the tag 201 a status is shown to port 3 of 4, and none without a cause. -/
example : (axiDescStatus ⟨4, 6, 8, true, true⟩ false true 201 0).valid = 8 ∧
    (axiDescStatus ⟨4, 6, 8, true, true⟩ false false 201 0).valid = 0 := by decide

/-! ### Examples -/

/-- Two clients with two-bit selects and three-bit tags. -/
def dimExCfg : DimCfg := ⟨2, 2, 3, true, 3, 4, true, true⟩
/-- Client 0 offers a descriptor with RAM select 1 and tag 5, client 1 one with RAM select 2 and tag 5;
later the DMA interface writes to the RAM selects it was given; the RAMs answer late. -/
def dimExRd (n : Nat) : DimRdIn :=
  { dvalid := fun _ => n == 1
    desc := fun p => ⟨4096 + p, 1 + p, 7, 0, false, 64, 5⟩
    dready := true, stValid := n == 20, stTag := 13, stError := 0
    cmdValid := fun _ => n == 10 || n == 11
    cmd := fun _ => if n == 10 then ⟨6, 15, 3, 100⟩ else ⟨1, 15, 3, 200⟩
    ramReady := fun _ _ => true
    ramDone := fun p _ => if p == 1 then n == 16 else n == 14 }
def dimExRd0 : DimRd := dimRdStep dimExCfg
  { mux := { valid := fun _ => true, reg := fun _ => ⟨0, 0, 0, 0, false, 0, 0⟩
             skid := { out := ⟨0, 0, 0, 0, false, 0, 0⟩, temp := ⟨0, 0, 0, 0, false, 0, 0⟩ } }
    status := {}, dx := fun _ => wrEx0 } { dimExRd 0 with rst := true }
example : dimRdSent dimExCfg dimExRd0 ((List.range 20).map dimExRd) =
    [⟨4096, 1, 7, 0, false, 64, 5⟩, ⟨4097, 6, 7, 0, false, 64, 13⟩] := by decide +kernel
example : dimRdCmds dimExCfg 0 dimExRd0 ((List.range 20).map dimExRd) = [⟨6, 15, 3, 100⟩, ⟨1, 15, 3, 200⟩] ∧
    dimRdRam dimExCfg 0 0 dimExRd0 ((List.range 20).map dimExRd) = [⟨1, 15, 3, 200⟩] ∧
    dimRdRam dimExCfg 1 0 dimExRd0 ((List.range 20).map dimExRd) = [⟨2, 15, 3, 100⟩] ∧
    dimRdDone dimExCfg 0 dimExRd0 ((List.range 20).map dimExRd) = 2 := by decide +kernel
example : ∀ k < 21, ∀ p < 2, dimRdRamDone p 0 (((List.range 20).map dimExRd).take k) ≤
    (dimRdRam dimExCfg p 0 dimExRd0 (((List.range 20).map dimExRd).take k)).length := by decide +kernel
example : (dimRdRun dimExCfg dimExRd0 ((List.range 21).map dimExRd)).status = ⟨5, 0, 2⟩ := by decide +kernel

/-- The same for writes; client 0 answers before client 1. -/
def dimExWr (n : Nat) : DimWrIn Nat :=
  { dvalid := fun _ => n == 1
    desc := fun p => ⟨4096 + p, 1 + p, 7, 9, true, 64, 5⟩
    dready := true, stValid := n == 20, stTag := 13, stError := 0
    cmdValid := fun _ => n == 10 || n == 11
    cmd := fun _ => if n == 10 then ⟨6, 3⟩ else ⟨1, 3⟩
    ramReady := fun _ _ => true
    respValid := fun p _ => if p == 1 then n == 17 else n ≥ 14
    respData := fun p _ => 1000 + p
    respReady := fun _ => true }
def dimExWr0 : DimWr Nat := dimWrStep dimExCfg
  { mux := { valid := fun _ => true, reg := fun _ => ⟨0, 0, 0, 0, false, 0, 0⟩
             skid := { out := ⟨0, 0, 0, 0, false, 0, 0⟩, temp := ⟨0, 0, 0, 0, false, 0, 0⟩ } }
    status := {}, dx := fun _ => rdEx0 } { dimExWr 0 with rst := true }
example : dimWrSent dimExCfg dimExWr0 ((List.range 20).map dimExWr) =
    [⟨4096, 1, 7, 9, true, 64, 5⟩, ⟨4097, 6, 7, 9, true, 64, 13⟩] := by decide +kernel
example : dimWrCmds dimExCfg 0 dimExWr0 ((List.range 30).map dimExWr) = [⟨6, 3⟩, ⟨1, 3⟩] ∧
    dimWrRam dimExCfg 0 0 dimExWr0 ((List.range 30).map dimExWr) = [⟨1, 3⟩] ∧
    dimWrRam dimExCfg 1 0 dimExWr0 ((List.range 30).map dimExWr) = [⟨2, 3⟩] ∧
    dimWrResp dimExCfg 0 dimExWr0 ((List.range 30).map dimExWr) = [1001, 1000] := by decide +kernel

example : axiDescStatus ⟨3, 5, 8, true, true⟩ false true
    (axiDescConv ⟨3, 5, 8, true, true⟩ 2 ⟨4096, 128, 64, 17⟩).tag 3 = ⟨17, 3, 4⟩ := by decide +kernel

end Verif.Props
