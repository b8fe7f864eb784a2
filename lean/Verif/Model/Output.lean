import Verif.Model.Cache
/-! Model of how the processes write their results to the standard output (/repo/libff/console.py:79-84, 241-253), down to the calls of write(2):
`sys.stdout` is CPython's `TextIOWrapper` on top of a `BufferedWriter` (Modules/_io/textio.c and bufferedio.c of CPython 3.9 and later). -/
namespace FF

/-- The data in the two layers of `sys.stdout` that is not written yet. -/
structure StdOut where
  /-- `pending_bytes` of the TextIOWrapper -/
  pending : Bytes
  /-- the buffer of the BufferedWriter -/
  buf : Bytes
deriving DecidableEq, Repr

/-- Nothing is waiting to be written. -/
def StdOut.empty : StdOut := ⟨[], []⟩

/-- `TextIOWrapper._CHUNK_SIZE` -/
def textChunkSize : Nat := 8192

/-- bufferedio.c `_io_BufferedWriter_write_impl`, for a buffer of size `B`: the calls of write(2) and the new content of the buffer. A call that does not write all of
its data is repeated with the rest, so it is the same as one that is cut into pieces. -/
def bufWrite (B : Nat) (buf data : Bytes) : List Bytes × Bytes :=
  if data.length ≤ B - buf.length then ([], buf ++ data)
  else ((if buf = [] then [] else [buf]) ++ (if B < data.length then [data] else []), if B < data.length then [] else data)

/-- textio.c `_textiowrapper_writeflush`. -/
def StdOut.writeflush (B : Nat) (st : StdOut) : List Bytes × StdOut :=
  ((bufWrite B st.buf st.pending).1, ⟨[], (bufWrite B st.buf st.pending).2⟩)

/-- bufferedio.c `_bufferedwriter_flush_unlocked`. -/
def StdOut.bufFlush (st : StdOut) : List Bytes × StdOut := (if st.buf = [] then [] else [st.buf], ⟨st.pending, []⟩)

/-- `sys.stdout.flush()`, textio.c `_io_TextIOWrapper_flush_impl`. -/
def StdOut.flush (B : Nat) (st : StdOut) : List Bytes × StdOut :=
  let a := st.writeflush B
  let b := a.2.bufFlush
  (a.1 ++ b.1, b.2)

/-- `sys.stdout.write(text)`, textio.c `_io_TextIOWrapper_write_impl`, for a text that is encoded as `chunk`. `lineBuf` is `line_buffering`, which is set for terminals. -/
def StdOut.write (lineBuf : Bool) (B : Nat) (st : StdOut) (chunk : Bytes) : List Bytes × StdOut :=
  let needflush := lineBuf && (chunk.contains 10 || chunk.contains 13)
  let a := if textChunkSize ≤ chunk.length then st.writeflush B else ([], st)
  let b := if a.2.pending ≠ [] ∧ textChunkSize < a.2.pending.length + chunk.length then a.2.writeflush B else ([], a.2)
  let c : StdOut := ⟨b.2.pending ++ chunk, b.2.buf⟩
  let d := if textChunkSize ≤ c.pending.length ∨ needflush = true then c.writeflush B else ([], c)
  let e := if needflush then d.2.bufFlush else ([], d.2)
  (a.1 ++ b.1 ++ d.1 ++ e.1, e.2)

/-- Several calls of `write`. -/
def StdOut.writes (lineBuf : Bool) (B : Nat) : StdOut → List Bytes → List Bytes × StdOut
  | st, [] => ([], st)
  | st, c :: cs =>
    let a := st.write lineBuf B c
    let b := StdOut.writes lineBuf B a.2 cs
    (a.1 ++ b.1, b.2)

/-- console.py:241-253 `Console._write_line` (two chunks: the line, and what ends it) and console.py:79-84 `JsonlConsole._print_record` (the chunks of `json.dump`, and
the end of the line): `chunks` are written, and then `sys.stdout.flush()` is called. -/
def StdOut.record (lineBuf : Bool) (B : Nat) (st : StdOut) (chunks : List Bytes) : List Bytes × StdOut :=
  let a := st.writes lineBuf B chunks
  let b := a.2.flush B
  (a.1 ++ b.1, b.2)

/-- All the records a process prints, one after the other: the calls of write(2). -/
def StdOut.records (lineBuf : Bool) (B : Nat) : StdOut → List (List Bytes) → List Bytes
  | _, [] => []
  | st, r :: rs => (st.record lineBuf B r).1 ++ StdOut.records lineBuf B (st.record lineBuf B r).2 rs

/-- PIPE_BUF of Linux, pipe(7). -/
def pipeBuf : Nat := 4096

/-- A call of write(2): what is still to be written, and whether it may be cut into pieces. pipe(7): "POSIX.1 says that writes of less than PIPE_BUF bytes must be atomic"
(including PIPE_BUF on Linux), "writes of more than PIPE_BUF bytes may be nonatomic: the kernel may interleave the data with data written by other processes". -/
abbrev WriteCall := Bytes × Bool

/-- The call as it is made. -/
def writeCall (data : Bytes) : WriteCall := (data, decide (pipeBuf < data.length))

/-- What the reader gets, and the calls each of the processes has yet to make. -/
abbrev PipeState := Bytes × List (List WriteCall)

/-- A step of one of the processes. -/
inductive PipeStep : PipeState → PipeState → Prop
  | whole {out : Bytes} {a b : List (List WriteCall)} {q : Bytes} {cut : Bool} {qs : List WriteCall} : PipeStep (out, a ++ ((q, cut) :: qs) :: b) (out ++ q, a ++ qs :: b)
  | part {out : Bytes} {a b : List (List WriteCall)} {p q : Bytes} {qs : List WriteCall} :
      PipeStep (out, a ++ ((p ++ q, true) :: qs) :: b) (out ++ p, a ++ ((q, true) :: qs) :: b)

/-- Any number of steps. -/
inductive PipeSteps : PipeState → PipeState → Prop
  | refl {s : PipeState} : PipeSteps s s
  | step {s t u : PipeState} : PipeSteps s t → PipeStep t u → PipeSteps s u

/-- The processes, each with the records it prints (walk.py:76-131: each has a copy of `sys.stdout`, the buffers of which are empty when it is started, since
`multiprocessing` flushes them before); the sizes of the buffers are all the same. -/
def initPipe (lineBuf : Bool) (B : Nat) (procs : List (List (List Bytes))) : PipeState :=
  ([], procs.map fun rs => (StdOut.empty.records lineBuf B rs).map writeCall)

end FF
