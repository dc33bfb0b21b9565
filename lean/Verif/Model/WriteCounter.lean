import Verif.Model.Str
/-
The counter of entries of the file sink as a machine number: /repo/src/filesink.cpp:57-70 (fileWrite), /repo/src/g3log/filesink.hpp:35-36
(`size_t _write_counter`, `size_t _write_to_log_every_x_message`).

Verif.Model.FileSink has an unbounded counter; here it wraps at W (2^32 or 2^64). Only what the counter decides is modelled: entries that are collected, and
entries that have been transferred. External: nothing. Simplifications: the header and the formatting of entries, which Verif.Model.FileSink has, are left out;
an interval of 0 is a division by zero there.
-/
namespace G3

/-- The part of the sink that depends on the counter. -/
structure CounterSink (M : Type) where
  counter : Nat
  buf : List M
  file : List M
deriving DecidableEq, Repr

/-- fileWrite, filesink.cpp:65-69, with a counter that wraps at W and a transfer after every N-th entry. -/
def CounterSink.write {M : Type} (W N : Nat) (s : CounterSink M) (m : M) : CounterSink M :=
  let c := (s.counter + 1) % W
  let b := s.buf ++ [m]
  if c % N = 0 then { counter := c, buf := [], file := s.file ++ b } else { s with counter := c, buf := b }

/-- A new sink receives entries. -/
def CounterSink.run {M : Type} (W N : Nat) (ms : List M) : CounterSink M :=
  ms.foldl (CounterSink.write W N) { counter := 0, buf := [], file := [] }

end G3
