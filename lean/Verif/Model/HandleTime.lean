import Verif.Model.ConnManager

/-!
# `handleConnections` on a network where datagrams arrive at times

`BaseSocket::select` (BaseSocket.cpp:120-151) and `ConnectionManager::handleConnections`
(ConnectionManager.cpp:207-227), as `Mgr.selectLoop` and `Mgr.handle`, when the datagrams for the
implicit socket have arrival times.  `::select` is a part of the system, not of the code: it returns
as soon as a datagram is there, and otherwise when its interval is over.  Times are nanoseconds.
Simplifications: there is one implicit socket (C43: there is never more than one); `::select` does not fail
and is not late; ticking takes no time.  The time that the handler needs for a datagram is `busy`,
any function of the number of the datagram within the call.
-/

namespace Verif

/-- What will arrive at the implicit socket, and when. -/
abbrev Queue := List (Nat × Arrival)

namespace Mgr

/-- A `timeval` in nanoseconds. -/
def tvNanos (tv : Int × Int) : Nat := tv.1.toNat * 1000000000 + tv.2.toNat * 1000

/-- How long `::select` waits when it is called at `now` (BaseSocket.cpp:129). -/
def waitNanos (stop : Int) (now : Nat) : Nat := tvNanos (makePortableInterval (remainingMs stop now))

/-- The loop of `BaseSocket::select` (BaseSocket.cpp:128-150), as `Mgr.selectLoop`, from the time
`now`; the result has the time when it ended and what has not been received.  `i` counts the
datagrams. -/
def selectAt (P : Plat) (stop : Int) (busy : Nat → Nat) : Nat → Nat → Queue → Mgr → Stage × Nat × Queue
  | _, now, [], s =>
    (.go s [.waited (makePortableInterval (remainingMs stop now))], now + waitNanos stop now, [])
  | i, now, (a, r) :: rest, s =>
    let w := MEv.waited (makePortableInterval (remainingMs stop now))
    if a ≤ now + waitNanos stop now then
      match deliverAll P [r] s with
      | .ub evs => (.ub (w :: evs), max now a, rest)
      | .threw s' evs e => (.threw s' (w :: evs) e, max now a + busy i, rest)
      | .go s' evs =>
        match selectAt P stop busy (i + 1) (max now a + busy i) rest s' with
        | (.ub evs', now', q) => (.ub (w :: evs ++ evs'), now', q)
        | (.threw s'' evs' e, now', q) => (.threw s'' (w :: evs ++ evs') e, now', q)
        | (.go s'' evs', now', q) => (.go s'' (w :: evs ++ evs'), now', q)
    else (.go s [w], now + waitNanos stop now, (a, r) :: rest)

/-- `handleConnections` (ConnectionManager.cpp:207-227), as `Mgr.handle`, called at `start`; the
result has the time when it returned and what has not been received.  `env` says what the listeners
of each connection do and what `sendto` returns. -/
def handleAt (P : Plat) (timeoutMs : Int) (busy : Nat → Nat) (env : Nat → Hook × Int) (start : Nat) (queue : Queue)
    (s : Mgr) : StepRes × Nat × Queue :=
  match s.sockets with
  | [] => (.stop [] .ub, start, queue)
  | _ :: _ =>
    match selectAt P (start + timeoutMs * 1000000) busy 0 start queue s with
    | (.ub evs, now, q) => (.stop evs .ub, now, q)
    | (.threw s' evs e, now, q) => (.ok s' evs (.threw e), now, q)
    | (.go s' evs, now, q) =>
      match tickAll (fun id => ⟨now, (env id).1, (env id).2⟩) s'.table s'.heap with
      | (heap, evs', keys, none) =>
        (.ok { s' with heap := heap, table := s'.table.filter fun e => !keys.contains e.1 } (evs ++ evs') .unit, now, q)
      | (heap, evs', _, some e) => (.ok { s' with heap := heap } (evs ++ evs') (.threw e), now, q)

/-- `n` calls of `handleConnections` one after the other, each at the time when the one before it
returned, all of which return normally: the state afterwards, the events of each call and the time
when it returned, and what has not been received.  This is the loop of the documentation
(examples/ImplicitMessagingExample.cpp:80-83) without its condition. -/
def loopAt (P : Plat) (timeoutMs : Int) (busy : Nat → Nat → Nat) (env : Nat → Nat → Hook × Int) :
    Nat → Nat → Queue → Mgr → Option (Mgr × List (Nat × List MEv) × Queue)
  | 0, _, q, s => some (s, [], q)
  | n + 1, start, q, s =>
    match handleAt P timeoutMs (busy n) (env n) start q s with
    | (.ok s' evs .unit, now, q') =>
      match loopAt P timeoutMs busy env n now q' s' with
      | some (s'', outs, q'') => some (s'', (now, evs) :: outs, q'')
      | none => none
    | _ => none

end Mgr

end Verif
