import Verif.Model.S10IfRx
import Verif.Spec.PtileIfRx
/-! Specification of the receive side of the Stratix 10 adapter: TLPs as sequences of double words, in and out. -/
namespace Verif.Spec
open Verif.Model

/-- The first `n` double words of a number. -/
def dwsOf : Nat → Nat → List Nat
  | 0, _ => []
  | n + 1, x => x % 2 ^ 32 :: dwsOf n (x / 2 ^ 32)

/-- The number with these double words. -/
def dwsNum : List Nat → Nat
  | [] => 0
  | d :: l => d + 2 ^ 32 * dwsNum l

/-- The double words of a segment: eight, but for the `empty` ones at the end of a TLP. -/
def s10Lanes (x : S10Seg) : Nat := if x.eop then 8 - x.empty else 8

/-- The double words of a TLP, header first. -/
def s10Dws (t : List S10Seg) : List Nat := t.flatMap fun x => dwsOf (s10Lanes x) x.data

/-- The header has four double words if bit 29 of the first one is set, else three. -/
def s10HdrLen (t : List S10Seg) : Nat := if (t.head?.any fun x => (x.data % 2 ^ 32).testBit 29) then 4 else 3

/-- A whole TLP at the input: start flag on the first segment only, end flag on the last segment only; it is at least as long
as its header. -/
def S10Tlp (t : List S10Seg) : Prop :=
  t ≠ [] ∧ (∀ (k : Nat) (h : k < t.length), (t[k].sop = true ↔ k = 0) ∧ (t[k].eop = true ↔ k + 1 = t.length) ∧ t[k].empty < 8) ∧
    s10HdrLen t ≤ (s10Dws t).length

/-- The beginning of a TLP (possibly nothing). -/
def S10Part (t : List S10Seg) : Prop := ∀ (k : Nat) (h : k < t.length), (t[k].sop = true ↔ k = 0) ∧ t[k].eop = false

/-- A payload in rows of eight double words, at least one row; the first row has the header, the BAR, the function number and
the flag in `m`, the last one has the end flag. -/
def rxRows (m : TlpSeg) (l : List Nat) : List TlpSeg :=
  if l.length ≤ 8 then [{ m with data := dwsNum l, strb := 2 ^ l.length - 1, eop := true }]
  else { m with data := dwsNum (l.take 8), strb := 2 ^ 8 - 1 } :: rxRows {} (l.drop 8)
termination_by l.length
decreasing_by rw [List.length_drop]; omega

/-- The BAR: the ranges 6 and 7 stand for the I/O BAR and for the expansion ROM. -/
def s10BarOf (c : S10RxCfg) (n : Nat) : Nat := match n with
  | 6 => c.ioBar % 8
  | 7 => 6
  | n => n

/-- What must come out for a TLP: the header as one number, first double word on top (of a header of three double words the
fourth means nothing), the payload in rows, and BAR and function as given with the start flag. -/
def s10TlpOut (c : S10RxCfg) (t : List S10Seg) : List TlpSeg :=
  rxRows { sop := true, hdr := dwsNum ((dwsOf 4 (t.headD {}).data).reverse), bar := s10BarOf c (t.headD {}).bar, func := (t.headD {}).func % 4 }
    ((s10Dws t).drop (s10HdrLen t))

/-- What a receiver looks at: the double words with a strobe; header, BAR and function number only with the start flag. -/
def rxLook (x : TlpSeg) : TlpSeg := { rxView x with data := x.data % 2 ^ (32 * (x.strb + 1).log2) }

/-- The segments of one row, and of a history. -/
def s10Row (c : S10RxCfg) (i : S10RxIn) : List S10Seg := ((List.range c.segs).filter i.valid).map i.seg

def s10Sent (c : S10RxCfg) (is : List S10RxIn) : List S10Seg := is.flatMap (s10Row c)

/-- What the receiver at port `p` (0: requests, 1: completions) takes in a history. -/
def s10Taken {St : Type} (c : S10RxCfg) (F : TlpDev St) (shown : St → List TlpSeg) (p : Nat) : S10Rx St → List S10RxIn → List TlpSeg
  | _, [] => []
  | s, i :: is => (if i.ready p then shown (s.dx.fifo p) else []) ++ s10Taken c F shown p (s10RxStep c F s i) is

/-- The source stops in time: it sends in cycle `k` only if `L` cycles earlier `rx_st_ready` was set. -/
def S10Obeys {St : Type} (c : S10RxCfg) (F : TlpDev St) (water : St → Bool) (L : Nat) (s : S10Rx St) (is : List S10RxIn) : Prop :=
  ∀ k (h : k < is.length), (∃ g, g < c.segs ∧ is[k].valid g = true) →
    L ≤ k ∧ s10RxReady water (s10RxRun c F s (is.take (k - L))) = true

/-- No row is written over another one: whenever a row arrives, the register at the input holds nothing, or the row in it
moves on in the same cycle. -/
def S10Room {St : Type} (c : S10RxCfg) (F : TlpDev St) (s : S10Rx St) (is : List S10RxIn) : Prop :=
  ∀ k (h : k < is.length), (∃ g, g < c.segs ∧ is[k].valid g = true) →
    (∀ g, g < c.segs → (s10RxRun c F s (is.take k)).iv g = false) ∨ s10Take c F (s10RxRun c F s (is.take k)) is[k] = true

/-- There is no gap in a TLP: behind a valid segment without end flag, the next segment of the row is valid, and behind the
last segment of the row the first one of the next row in which anything is valid. `o` says that a TLP is unfinished. With one
segment per row this is always so. -/
def S10NoGap (c : S10RxCfg) : Bool → List S10RxIn → Prop
  | _, [] => True
  | o, i :: is =>
    if (∃ g, g < c.segs ∧ i.valid g = true) then
      (o = true → i.valid 0 = true) ∧
      (∀ g, g + 1 < c.segs → i.valid g = true → (i.seg g).eop = false → i.valid (g + 1) = true) ∧
      S10NoGap c (i.valid (c.segs - 1) && !(i.seg (c.segs - 1)).eop) is
    else S10NoGap c o is

end Verif.Spec
