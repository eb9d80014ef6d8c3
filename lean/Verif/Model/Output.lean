import Verif.Model.Registry

/-! Model of `src/output.rs`. -/

namespace Bracket

/-- Rust `str::as_bytes`. -/
def utf8 (s : Str) : List UInt8 := s.flatMap String.utf8EncodeChar

/-- output.rs:35-37 `StringOutput`. -/
structure StringOutput where
  value : Str

/-- output.rs:41-45 `StringOutput::new`. -/
def StringOutput.new : StringOutput := ⟨[]⟩

/-- output.rs:54-58 and 60-68 `StringOutput::write_str`; the bytes of a `str` are valid UTF-8, so the
panic of line 64 cannot happen. -/
def StringOutput.writeStr (o : StringOutput) (s : Str) : Except IoErr Nat × StringOutput :=
  (.ok (blen s), ⟨o.value ++ s⟩)

/-- An `io::Write` (`write` only; the renderer never flushes): a state machine that answers each call
with the number of bytes it took, or an error. -/
structure Device (σ : Type) where
  write : σ → List UInt8 → Except IoErr Nat × σ

/-- output.rs:11-13, 15-19 `Writer::write_str`. -/
def Device.writeStr {σ : Type} (d : Device σ) (st : σ) (s : Str) : Except IoErr Nat × σ := d.write st (utf8 s)

/-- The state of a `Writer`'s device after the given writes. -/
def Device.after {σ : Type} (d : Device σ) (st : σ) (ws : List Wr) : σ := ws.foldl (fun st w => (d.writeStr st w.chunk).2) st

/-- A `Writer` as the destination of a render. -/
def Device.sink {σ : Type} (d : Device σ) (st : σ) : Sink := fun ws s => (d.writeStr (d.after st ws) s).1

end Bracket
