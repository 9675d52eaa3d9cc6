import Verif.Model.Live
import Verif.Spec.File
/-! Vocabulary for image buffers with side effects. -/
namespace Jpeg.Spec

/-- The number of the row that the `n`-th request (counted from zero) asks for: the rows in order, then the last one again. -/
def rowAsked (h : UInt16) (n : Nat) : UInt16 := UInt16.ofNat (min n (h.toNat - 1))

/-- How often rows are requested: once for every line of the image extended to whole MCUs. -/
def rowRequests (e : Encoder) (ct : JpegColorType) (w h : UInt16) : Nat :=
  (frameOf e ct w h).mcusHigh * (8 * (frameOf e ct w h).vmax)

/-- The image buffer `B`, asked for rows in that order, answers like the function `f`. `seen n t`: the state may be `t` after `n` requests. Nothing is
known about requests out of order. -/
def AnswersInOrder {τ : Type} (B : LiveFill τ) (f : UInt16 → Rows → R Rows) (h : UInt16) (total : Nat) (seen : Nat → τ → Prop) : Prop :=
  ∀ n t rows, n < total → seen n t → (B.fill t (rowAsked h n) rows).2 = f (rowAsked h n) rows ∧ seen (n + 1) (B.fill t (rowAsked h n) rows).1

/-- The image buffer `B` together with a record of its calls: row number and contents of the row buffers at the time of the call. -/
def recording {τ : Type} (B : LiveFill τ) : LiveFill (τ × List (UInt16 × Rows)) :=
  ⟨fun t y rows => (((B.fill t.1 y rows).1, t.2 ++ [(y, rows)]), (B.fill t.1 y rows).2)⟩

/-- The contents of the row buffer of component `c`. -/
def rowData (rows : Rows) (c : Nat) : Bytes := ([rows.b0, rows.b1, rows.b2, rows.b3].map Buf.data).getD c []

instance (e : Encoder) : Decidable (Baseline e) := by unfold Baseline; infer_instance

/-- How many lines the row buffers hold when the `n`-th row is requested: baseline files are written MCU row by MCU row, for others the whole image is
collected first. -/
def linesHeld (e : Encoder) (ct : JpegColorType) (w h : UInt16) (n : Nat) : Nat :=
  if Baseline e then n % (8 * (frameOf e ct w h).vmax) else n

/-- How many lines the row buffers are made for: an MCU row in baseline mode, the whole image otherwise. -/
def linesKept (e : Encoder) (ct : JpegColorType) (w h : UInt16) : Nat :=
  if Baseline e then 8 * (frameOf e ct w h).vmax else rowRequests e ct w h

/-- The width of a line extended to whole MCUs. -/
def paddedWidth (e : Encoder) (ct : JpegColorType) (w h : UInt16) : Nat := (frameOf e ct w h).mcusWide * (8 * (frameOf e ct w h).hmax)

/-- The image buffer `B` appends one sample per pixel and component, as the documentation of `fill_buffers` asks for (or panics). -/
def AppendsLines {τ : Type} (B : LiveFill τ) (ct : JpegColorType) (w : UInt16) : Prop :=
  ∀ t y rows rows', (B.fill t y rows).2 = .ok rows' → ∀ c, c < componentCount ct → ∃ line : Bytes, line.length = w.toNat ∧ rowData rows' c = rowData rows c ++ line

end Jpeg.Spec
