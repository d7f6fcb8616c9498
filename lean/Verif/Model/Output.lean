import Verif.Model.Py
/-!
# Redirection of stdout, stderr and logging

`pythagoras/_810_output_manipulators/output_capturer.py` and `output_suppressor.py`, together with
the parts of Python's `sys` and `logging` they touch.
-/
namespace Pyth.Output

/-- Objects that can be written to: real streams, the capturer's `_TeeStream`
(output_capturer.py:15-46: an original stream and a buffer), and `open(os.devnull, 'w')`.
Simplifications: flushing is not modelled; devnull is never closed. -/
inductive Stream
  | base (k : Nat)
  | tee (original : Stream) (buffer : Nat)
  | null
  deriving DecidableEq, Repr

/-- Log handlers: an ordinary `logging.StreamHandler` number `k` with its level and stream, and the
capturer's `_CaptureHandler` (output_capturer.py:48-74: a buffer and the original handlers). -/
inductive Handler
  | base (k : Nat) (level : Nat) (stream : Stream)
  | capture (buffer : Nat) (originals : List Handler)

/-- The global state: `sys.stdout`, `sys.stderr`, `logging.root.handlers`, what every real stream
received, what every StringIO buffer contains (pieces, in order), the next buffer identity.
(output_capturer.py:75-107, output_suppressor.py:10-22) -/
structure Out where
  out : Stream
  err : Stream
  handlers : List Handler
  bases : Nat → List String := fun _ => []
  buffers : Nat → List String := fun _ => []
  next : Nat := 0

/-- append a piece to a real stream (output_capturer.py:32-39) -/
def Out.addBase (s : Out) (k : Nat) (t : String) : Out :=
  { s with bases := fun j => if j = k then s.bases j ++ [t] else s.bases j }

/-- append a piece to a buffer (output_capturer.py:32-39, 64-73) -/
def Out.addBuffer (s : Out) (b : Nat) (t : String) : Out :=
  { s with buffers := fun j => if j = b then s.buffers j ++ [t] else s.buffers j }

/-- `stream.write(data)`; for a tee: the original first, then the buffer
(output_capturer.py:32-39) -/
def write : Stream → String → Out → Out
  | .base k, t, s => s.addBase k t
  | .tee o b, t, s => (write o t s).addBuffer b t
  | .null, _, s => s

/-- How the formatter of handler number `k` renders a message (with its terminator). (output_capturer.py:64-73) -/
abbrev Fmt := Nat → String → String

mutual
/-- `handler.emit(record)`. A StreamHandler writes the formatted message to its stream; a
`_CaptureHandler` writes the plain message and a newline to the buffer and then calls `emit` of each
original handler (output_capturer.py:64-73). -/
def emit (fmt : Fmt) : Handler → String → Out → Out
  | .base k _ st, m, s => write st (fmt k m) s
  | .capture b hs, m, s => emitL fmt hs m (s.addBuffer b (m ++ "\n"))
/-- the loop over the original handlers (output_capturer.py:72-73) -/
def emitL (fmt : Fmt) : List Handler → String → Out → Out
  | [], _, s => s
  | h :: hs, m, s => emitL fmt hs m (emit fmt h m s)
end

/-- the level of a handler; `_CaptureHandler` calls `super().__init__()`, i.e. NOTSET = 0 (output_capturer.py:53-62) -/
def Handler.level : Handler → Nat
  | .base _ l _ => l
  | .capture _ _ => 0

/-- Python's logging: `Logger.callHandlers` hands a record (already enabled for the logger) to each
handler whose level it reaches; without any handler, `logging.lastResort` writes messages of level
WARNING (30) and above to the current `sys.stderr`. (the handlers of output_capturer.py:47-73, 92-98) -/
def log (fmt : Fmt) (lvl : Nat) (m : String) (s : Out) : Out :=
  match s.handlers with
  | [] => if 30 ≤ lvl then write s.err (m ++ "\n") s else s
  | hs => emitL fmt (hs.filter fun h => decide (h.level ≤ lvl)) m s

/-- An `OutputCapturer` object (output_capturer.py:75-90) -/
structure Capturer where
  originalOut : Stream
  originalErr : Stream
  originalHandlers : List Handler
  buffer : Nat

/-- `OutputCapturer.__init__` (output_capturer.py:76-91): remembers the current streams and
handlers, with a new empty buffer. -/
def newCapturer (s : Out) : Capturer × Out :=
  (⟨s.out, s.err, s.handlers, s.next⟩,
   { s with next := s.next + 1, buffers := fun j => if j = s.next then [] else s.buffers j })

/-- `OutputCapturer.__enter__` (output_capturer.py:93-99) -/
def Capturer.enter (c : Capturer) (s : Out) : Out :=
  { s with out := .tee c.originalOut c.buffer, err := .tee c.originalErr c.buffer
           handlers := [.capture c.buffer c.originalHandlers] }

/-- `OutputCapturer.__exit__` (output_capturer.py:101-108): print the traceback (`tb`) to the current
stderr if there is an exception, then put back what `__init__` remembered. -/
def Capturer.exit (c : Capturer) (tb : Option String) (s : Out) : Out :=
  let s := match tb with
    | some t => write s.err t s
    | none => s
  { s with out := c.originalOut, err := c.originalErr, handlers := c.originalHandlers }

/-- `OutputCapturer.get_output` (output_capturer.py:109-114) -/
def Capturer.getOutput (c : Capturer) (s : Out) : String := String.join (s.buffers c.buffer)

/-- Programs that write, log, raise, and use the context managers; `setOut`, `setErr`,
`addHandler` are user code that changes the global state itself (`logging.root.addHandler` of a
StreamHandler on the current stderr). (user code with blocks of output_capturer.py:92-107 and output_suppressor.py:10-22) -/
inductive Prog
  | skip
  | raise (n : Nat)
  | print (t : String)
  | eprint (t : String)
  | log (lvl : Nat) (m : String)
  | setOut (k : Nat)
  | setErr (k : Nat)
  | addHandler (k lvl : Nat)
  | seq (a b : Prog)
  | tryExcept (a b : Prog)
  /-- `with OutputCapturer(): body` -/
  | capture (body : Prog)
  /-- `with OutputSuppressor(): body` -/
  | suppress (body : Prog)

/-- Execution; the result is the exception that left the program, if any. `tb n` is the text of the
traceback of exception `n`. (output_capturer.py:92-107, output_suppressor.py:10-22) -/
def run (fmt : Fmt) (tb : Nat → String) : Prog → Out → Option Nat × Out
  | .skip, s => (none, s)
  | .raise n, s => (some n, s)
  | .print t, s => (none, write s.out t s)
  | .eprint t, s => (none, write s.err t s)
  | .log l m, s => (none, log fmt l m s)
  | .setOut k, s => (none, { s with out := .base k })
  | .setErr k, s => (none, { s with err := .base k })
  | .addHandler k l, s => (none, { s with handlers := s.handlers ++ [.base k l s.err] })
  | .seq a b, s =>
    match run fmt tb a s with
    | (none, s') => run fmt tb b s'
    | (some n, s') => (some n, s')
  | .tryExcept a b, s =>
    match run fmt tb a s with
    | (none, s') => (none, s')
    | (some _, s') => run fmt tb b s'
  | .capture body, s =>
    let c := (newCapturer s).1
    let r := run fmt tb body (c.enter (newCapturer s).2)
    (r.1, c.exit (r.1.map tb) r.2)
  -- OutputSuppressor.__enter__/__exit__ (output_suppressor.py:10-22): the streams are remembered
  -- when the block is entered
  | .suppress body, s =>
    let r := run fmt tb body { s with out := .null, err := .null }
    (r.1, { r.2 with out := s.out, err := s.err })

end Pyth.Output
