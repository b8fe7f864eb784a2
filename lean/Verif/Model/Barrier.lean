import Verif.Model.Protocol
/-! Model of `Context.barrier_wait` (context.py:112-126) and of what it relies on: `Barrier` and `Condition` of the standard library of Python
(threading.py `Barrier.wait`, `_enter`, `_release`, `_wait`, `_exit`, `_break`, `reset`; multiprocessing/synchronize.py `Condition.wait`, `notify`). -/
namespace FF

/-- `Barrier._state`: 0, 1, -1, -2. -/
inductive Phase
  | filling
  | draining
  | resetting
  | broken
  deriving DecidableEq

/-- What is done after `notify_all`. -/
inductive Then
  /-- the `finally` clause of `Barrier.wait`; whether the barrier has been passed -/
  | leave (ok : Bool)
  /-- the end of `Barrier.wait` -/
  | ret (ok : Bool)
  /-- the end of `Barrier.reset` -/
  | done
  deriving DecidableEq

/-- Where a process is. -/
inductive BPos
  /-- not in `barrier_wait` -/
  | out
  /-- `with self._cond` in `Barrier.wait` -/
  | acquire
  /-- `_enter`, holds the lock -/
  | enter
  /-- `_enter`: in `Condition.wait` without a timeout -/
  | drained
  /-- the same, woken up, asks for the lock -/
  | drainedUp
  /-- `_wait`: in `Condition.wait` with a timeout -/
  | asleep
  /-- the same, woken up, asks for the lock; whether the time is up -/
  | up (timeUp : Bool)
  /-- `_wait`: looks at the state, holds the lock -/
  | look (timeUp : Bool)
  /-- in `Condition.notify`, holds the lock, so many processes have yet to wake up -/
  | notify (k : Nat) (next : Then)
  /-- the `finally` clause of `Barrier.wait`, holds the lock -/
  | exit (ok : Bool)
  /-- context.py:123: `with self._cond` in `Barrier.reset` -/
  | acquireReset
  /-- in `Barrier.reset`, holds the lock -/
  | reset
  /-- `barrier.wait` has returned (context.py:125-126), or `barrier.reset` has (context.py:124) -/
  | back (ok : Bool)
  /-- killed while it was asleep -/
  | dead
  deriving DecidableEq

/-- What the processes share: `_state`, `_count`, the lock, and the semaphores `_sleeping_count`, `_woken_count` and `_wait_semaphore`. -/
structure BShared where
  phase : Phase
  count : Nat
  locked : Bool
  sleeping : Nat
  woken : Nat
  tokens : Nat
  deriving DecidableEq

/-- `Condition.notify` up to the loop that waits for the sleepers: those that have woken up since the last time are subtracted, all others are sent a token. As
it holds the lock this is one step. -/
def BShared.notifyAll (s : BShared) (next : Then) : BShared × BPos :=
  ({ s with sleeping := 0, woken := 0, tokens := s.tokens + (s.sleeping - s.woken) }, .notify (s.sleeping - s.woken) next)

/-- The end of `Barrier.wait`: it returns, or raises BrokenBarrierError. -/
def afterWait (ok : Bool) : BPos := if ok then .back true else .acquireReset

/-- Steps of a process; the barrier is for `parties` processes. -/
inductive BAct (parties : Nat) : BShared × BPos → BShared × BPos → Prop
  /-- context.py:117 -/
  | call {s} : BAct parties (s, .out) (s, .acquire)
  /-- Barrier.wait: with self._cond -/
  | lock {s} : s.locked = false → BAct parties (s, .acquire) ({ s with locked := true }, .enter)
  /-- _enter: while self._state in (-1, 1): self._cond.wait() -/
  | drain {s} : s.phase = .draining ∨ s.phase = .resetting → BAct parties (s, .enter) ({ s with sleeping := s.sleeping + 1, locked := false }, .drained)
  /-- _enter: raise BrokenBarrierError -/
  | refuse {s} : s.phase = .broken → BAct parties (s, .enter) ({ s with locked := false }, .acquireReset)
  /-- Barrier.wait: the last one calls _release -/
  | release {s} : s.phase = .filling → s.count + 1 = parties →
      BAct parties (s, .enter) (BShared.notifyAll { s with count := s.count + 1, phase := .draining } (.leave true))
  /-- Barrier.wait: all others call _wait -/
  | sleep {s} : s.phase = .filling → s.count + 1 ≠ parties →
      BAct parties (s, .enter) ({ s with count := s.count + 1, sleeping := s.sleeping + 1, locked := false }, .asleep)
  /-- Condition.wait: _wait_semaphore.acquire, _woken_count.release -/
  | wake {s} : 0 < s.tokens → BAct parties (s, .asleep) ({ s with tokens := s.tokens - 1, woken := s.woken + 1 }, .up false)
  /-- Condition.wait: the time is up -/
  | timeout {s} : BAct parties (s, .asleep) ({ s with woken := s.woken + 1 }, .up true)
  /-- Condition.wait: reacquire lock -/
  | relock {s t} : s.locked = false → BAct parties (s, .up t) ({ s with locked := true }, .look t)
  /-- Condition.wait in _enter: _wait_semaphore.acquire, _woken_count.release -/
  | wakeDrained {s} : 0 < s.tokens → BAct parties (s, .drained) ({ s with tokens := s.tokens - 1, woken := s.woken + 1 }, .drainedUp)
  /-- Condition.wait in _enter: reacquire lock -/
  | relockDrained {s} : s.locked = false → BAct parties (s, .drainedUp) ({ s with locked := true }, .enter)
  /-- _wait: self._state == 1 -/
  | passed {s t} : s.phase = .draining → BAct parties (s, .look t) (s, .exit true)
  /-- _wait: self._state < 0 -/
  | broken {s t} : s.phase = .resetting ∨ s.phase = .broken → BAct parties (s, .look t) (s, .exit false)
  /-- _wait: _break -/
  | break {s} : s.phase = .filling → BAct parties (s, .look true) (BShared.notifyAll { s with phase := .broken } (.leave false))
  /-- Condition.wait_for: nothing has happened -/
  | again {s} : s.phase = .filling → BAct parties (s, .look false) ({ s with sleeping := s.sleeping + 1, locked := false }, .asleep)
  /-- Condition.notify: _woken_count.acquire -/
  | woke {s k next} : 0 < s.woken → BAct parties (s, .notify (k + 1) next) ({ s with woken := s.woken - 1 }, .notify k next)
  /-- Condition.notify: all have woken up; rezero wait_semaphore -/
  | notified {s ok} : BAct parties (s, .notify 0 (.leave ok)) ({ s with tokens := 0 }, .exit ok)
  | notifiedRet {s ok} : BAct parties (s, .notify 0 (.ret ok)) ({ s with tokens := 0, locked := false }, afterWait ok)
  | notifiedDone {s} : BAct parties (s, .notify 0 .done) ({ s with tokens := 0, locked := false }, .back false)
  /-- Barrier.wait: finally: self._count -= 1, and _exit for the last one -/
  | exitLast {s ok} : s.count = 1 → s.phase = .resetting ∨ s.phase = .draining →
      BAct parties (s, .exit ok) (BShared.notifyAll { s with count := 0, phase := .filling } (.ret ok))
  | exit {s ok} : ¬ (s.count = 1 ∧ (s.phase = .resetting ∨ s.phase = .draining)) →
      BAct parties (s, .exit ok) ({ s with count := s.count - 1, locked := false }, afterWait ok)
  /-- Barrier.reset: with self._cond -/
  | lockReset {s} : s.locked = false → BAct parties (s, .acquireReset) ({ s with locked := true }, .reset)
  /-- Barrier.reset -/
  | reset {s} : BAct parties (s, .reset)
      (BShared.notifyAll { s with phase := if s.count = 0 then .filling else if s.phase = .filling ∨ s.phase = .broken then .resetting else s.phase } .done)
  /-- context.py:122-124, 244-245 of processing.py and walk.py:97: back to the loop -/
  | loop {s} : BAct parties (s, .back false) (s, .out)

/-- All processes. The first one is the main process. -/
structure Bar where
  shared : BShared
  procs : List BPos
  deriving DecidableEq

/-- A step of one of the processes. -/
inductive BStep : Bar → Bar → Prop
  | act {s l x r s' x'} : BAct (l ++ x :: r).length (s, x) (s', x') → BStep ⟨s, l ++ x :: r⟩ ⟨s', l ++ x' :: r⟩

inductive BSteps : Bar → Bar → Prop
  | refl {s} : BSteps s s
  | step {s t u} : BSteps s t → BStep t u → BSteps s u

/-- A process is killed while it waits for the others. -/
inductive Killed : Bar → Bar → Prop
  | mk {s l r} : s.phase = .filling → s.locked = false → Killed ⟨s, l ++ .asleep :: r⟩ ⟨s, l ++ .dead :: r⟩

/-- context.py:72: the barrier at the beginning. -/
def Bar.init (parties : Nat) : Bar := ⟨⟨.filling, 0, false, 0, 0, 0⟩, List.replicate parties .out⟩

end FF
