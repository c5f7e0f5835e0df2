import Verif.Model.Bar
import Verif.Spec.Config
/-! What software does with base address registers: sizing and programming. -/
namespace Verif.Spec
open Verif.Model

/-- What software computes from a 32-bit memory BAR after writing all ones (PCI Local Bus
Specification 6.2.5.1). -/
def sizeFromBar (v : Nat) : Nat := 2 ^ 32 - v / 16 * 16

/-- The same for an I/O BAR. -/
def sizeFromIoBar (v : Nat) : Nat := 2 ^ 32 - v / 4 * 4

/-- The same for a 64-bit BAR. -/
def sizeFromBar64 (lo hi : Nat) : Nat := 2 ^ 64 - (lo / 16 * 16 + hi * 2 ^ 32)

/-- Setting up the BARs of a function: `configure_bar` for each, in index order, and the base
address programmed by configuration writes (one or two registers). -/
def setupBars : Nat → List BarDesc → ConfigState → Option ConfigState
  | _, [], s => some s
  | i, .unused :: ds, s => setupBars (i + 1) ds s
  | i, .io k base :: ds, s => do
    let (b, m) ← configureBar s.bar s.bar_mask i (2 ^ k) false false true
    let s ← writeConfig { s with bar := b, bar_mask := m } (4 + i) base 0xf
    setupBars (i + 1) ds s
  | i, .mem32 k base pf :: ds, s => do
    let (b, m) ← configureBar s.bar s.bar_mask i (2 ^ k) false pf false
    let s ← writeConfig { s with bar := b, bar_mask := m } (4 + i) base 0xf
    setupBars (i + 1) ds s
  | i, .mem64 k base pf :: ds, s => do
    let (b, m) ← configureBar s.bar s.bar_mask i (2 ^ k) true pf false
    let s ← writeConfig { s with bar := b, bar_mask := m } (4 + i) (base % 2 ^ 32) 0xf
    let s ← writeConfig s (4 + (i + 1)) (base / 2 ^ 32) 0xf
    setupBars (i + 2) ds s

end Verif.Spec
