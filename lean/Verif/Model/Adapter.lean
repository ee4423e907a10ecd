/-
The async adapter: a worker thread that executes the calls of many tasks.
Models butane_core/src/db/adapter.rs:13-152 (`AsyncAdapterEnv`) as a transition system.
-/
import Verif.Model.Tx

namespace Butane.Adapter

/-- The function of a call, as a function on the connection of the worker: the new state of the
connection and the result; no result if it panics.  Results are values; errors of the database are
results. -/
structure Op (σ R : Type) where
  run : σ → σ × Option R

/-- What a caller has: the oneshot channel of its call, adapter.rs:72,93. -/
inductive Slot (R : Type) where
  /-- `rx.await` is pending -/
  | waiting
  /-- the worker has sent the result -/
  | ready (r : R)
  /-- the sender was dropped without sending -/
  | dropped
  /-- the call has returned the result -/
  | got (r : R)
  /-- the call has returned an error of the channel -/
  | gotError
  /-- the future was dropped: the caller has given up -/
  | gaveUp
deriving DecidableEq, Repr

/-- The state: the connection; whether the worker thread is running; the commands in the channel
(adapter.rs:29), oldest first, each with the number of its call; the callers. -/
structure State (σ R : Type) where
  conn : σ
  alive : Bool
  queue : List (Op σ R × Nat)
  slots : List (Slot R)

/-- `AsyncAdapterEnv::new`, adapter.rs:25-43, with the connection created on the worker. -/
def init {σ R : Type} (conn : σ) : State σ R := ⟨conn, true, [], []⟩

/-- `invoke`, `invoke_mut` up to `rx.await`, adapter.rs:49-78,80-98: make a oneshot channel and send
the function; sending fails if the worker is gone. -/
def submit {σ R : Type} (s : State σ R) (op : Op σ R) : State σ R :=
  if s.alive then
    { s with queue := s.queue ++ [(op, s.slots.length)], slots := s.slots ++ [.waiting] }
  else { s with slots := s.slots ++ [.gotError] }

/-- A sender sends: the caller has the result, unless it has given up. -/
def Slot.send {R : Type} (r : R) : Slot R → Slot R
  | .waiting => .ready r
  | s => s

/-- A sender is dropped. -/
def Slot.close {R : Type} : Slot R → Slot R
  | .waiting => .dropped
  | s => s

/-- Whether the caller has given up. -/
def gone {σ R : Type} (s : State σ R) (i : Nat) : Bool :=
  match s.slots[i]? with
  | some .gaveUp => true
  | _ => false

/-- One turn of the loop of the worker, adapter.rs:30-37: take the oldest command and run its
function, which sends its result.  A panic ends the thread; the receiver of the channel and the
commands in it are dropped, and with them the senders.

The function refers to arguments of the caller (adapter.rs:118-133 extends their lifetime by
`transmute`).  If the caller has given up they are gone, and the behaviour is undefined: the
connection gets an arbitrary state `junk`. -/
def work {σ R : Type} (s : State σ R) (junk : σ) : State σ R :=
  if s.alive then
    match s.queue with
    | [] => s
    | (op, i) :: rest =>
      if gone s i then { s with conn := junk, queue := rest }
      else
        match op.run s.conn with
        | (c, some r) => { s with conn := c, queue := rest, slots := s.slots.modify i (·.send r) }
        | (c, none) => ⟨c, false, [], s.slots.map (·.close)⟩
  else s

/-- `rx.await?` returns, adapter.rs:78,98. -/
def receive {σ R : Type} (s : State σ R) (i : Nat) : State σ R :=
  { s with slots := s.slots.modify i fun
      | .ready r => .got r
      | .dropped => .gotError
      | x => x }

/-- The future of a call is dropped before it has returned. -/
def giveUp {σ R : Type} (s : State σ R) (i : Nat) : State σ R :=
  { s with slots := s.slots.modify i fun
      | .waiting => .gaveUp
      | .ready _ => .gaveUp
      | .dropped => .gaveUp
      | x => x }

/-- A step of a schedule.  `Shutdown` is not modelled: it is sent when the last handle is dropped,
so no caller is left. -/
inductive Event (σ R : Type) where
  | submit (op : Op σ R)
  | work (junk : σ)
  | receive (i : Nat)
  | giveUp (i : Nat)

def step {σ R : Type} (s : State σ R) : Event σ R → State σ R
  | .submit op => submit s op
  | .work junk => work s junk
  | .receive i => receive s i
  | .giveUp i => giveUp s i

/-- A schedule. -/
def run {σ R : Type} (s : State σ R) : List (Event σ R) → State σ R
  | [] => s
  | e :: es => run (step s e) es

end Butane.Adapter
