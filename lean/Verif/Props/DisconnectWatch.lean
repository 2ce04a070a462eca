import Verif.Proof.DisconnectWatch
import Verif.Props.Router

/-!
# C112: learning that another process is gone
-/

namespace Verif.Props

open Verif Verif.DisconnectWatch

/-- What a new process is told, doing these things. -/
private def outs (es : List DisconnectWatch.Event) : Res (List DisconnectWatch.Out) := do
  let (_, os) ← DisconnectWatch.run DisconnectWatch.init es
  pure os

private def consumer : Bytes := "rbus.INBOX.7".toUTF8.data.toList

/-- C112. A process is told of the end of a connection exactly if it is watching: a direct handle was opened
when none was open and a listener could be added, and from then on a direct handle and a handle were always open.
Otherwise it is not told.

Partial: for processes with no other listener under the number 2 (`C112_number_fails`). -/
theorem C112_told_partial {h : DisconnectWatch.History} {s : DisconnectWatch.State}
    (hx : Exec DisconnectWatch.step DisconnectWatch.init h s) (ha : DisconnectWatch.Apart h) :
    (Watching h → Told s) ∧ (¬ Watching h → Deaf s) := by
  refine ⟨fun hw => told_of_routed (DisconnectWatch.Exec.inv hx ha) ((routed_iff hx ha).mpr hw), fun hw => ?_⟩
  refine deaf_of_not ?_
  cases hr : s.routed with
  | false => rfl
  | true => exact absurd ((routed_iff hx ha).mp hr) hw

/-- Two direct handles, of which the first is closed: still told; after the second, not. -/
example : outs [.openBus 1, .listen 10000, .openDirect 5 1 true, .openDirect 6 1 true, .closeDirect 5,
    .notice (.gone consumer), .closeDirect 6, .notice (.gone consumer)] =
    .ok [.done, .done, .done, .done, .done, .told (some consumer), .done, .told none] := by decide +kernel

/-- C112, only what the notice says. While a process is watching, a notice of anything else than the end of a
connection is without effect. -/
theorem C112_others {h : DisconnectWatch.History} {s : DisconnectWatch.State}
    (hx : Exec DisconnectWatch.step DisconnectWatch.init h s) (ha : DisconnectWatch.Apart h)
    (event : Option Int) (inbox : Option (Option Bytes)) (he : event ≠ some 1) :
    DisconnectWatch.step s (.notice (.json event inbox)) = .ok (s, .told none) := by
  have I := DisconnectWatch.Exec.inv hx ha
  cases hr : s.routed with
  | false => simp [DisconnectWatch.step, deliver, hr]
  | true =>
    have h1 := I.one
    rw [hr] at h1
    obtain ⟨x, w1, w2, w3⟩ := who_some (l := s.slots) (by simp at h1; omega)
    simp [DisconnectWatch.step, deliver, hr, w1, I.own x w2 w3, advisoryCallback, he]

/-- A client that has come (`rtAdviseClientConnect` is 0). -/
example : outs [.openBus 1, .openDirect 5 1 true, .notice (.json (some 0) (some (some consumer)))] =
    .ok [.done, .done, .told none] := by decide +kernel

/-- C112 (failure). A provider that opens no direct handle is never told that a consumer is gone, whatever it
registers and however long it runs: its subscriptions stay, because the registration in `rbus_regDataElements` is not
compiled. -/
theorem C112_provider_fails {h : DisconnectWatch.History} {s : DisconnectWatch.State}
    (hx : Exec DisconnectWatch.step DisconnectWatch.init h s)
    (hn : ∀ x ∈ h, ∀ d m, x.1 ≠ DisconnectWatch.Event.openDirect d m true) : Deaf s :=
  deaf_of_not (never hx hn).1

example : outs [.openBus 1, .register 1, .notice (.gone consumer)] = .ok [.done, .done, .told none] := by
  decide +kernel

/-- C112 (failure). A process that has closed its last handle while a direct handle was open is never told again,
though it connects again and opens direct handles: the number of these is not 0, so nothing is registered. -/
theorem C112_again_fails {h h' : DisconnectWatch.History} {s s' : DisconnectWatch.State}
    (hx : Exec DisconnectWatch.step DisconnectWatch.init h s) (hm : s.mains = []) (hd : s.directs ≠ [])
    (hx' : Exec DisconnectWatch.step DisconnectWatch.init (h ++ h') s') (ha : DisconnectWatch.Apart (h ++ h')) :
    Deaf s' :=
  deaf_of_not (never_again hx hm hd hx' ha)

example : outs [.openBus 1, .openDirect 5 1 true, .closeBus 1, .openBus 2, .openDirect 6 2 true,
    .notice (.gone consumer), .closeDirect 6, .openDirect 7 2 true, .notice (.gone consumer)] =
    .ok [.done, .done, .done, .done, .done, .told none, .done, .done, .told none] := by decide +kernel

/-- C112 (failure). Closing a direct handle after the handle it was made from reads freed memory. -/
theorem C112_order_fails : outs [.openBus 1, .openDirect 5 1 true, .closeBus 1, .closeDirect 5] = .ub := by
  decide +kernel

/-- C112 (failure). With all 128 listeners in use, opening a direct handle succeeds though the listener for
notices could not be added; this is not made up for when there is room, not even by the next direct handle. -/
theorem C112_full_fails :
    outs ([.openBus 1] ++ (List.range 127).map (fun k => .listen (10000 + k)) ++
      [.openDirect 5 1 true, .unlisten 10000, .openDirect 6 1 true, .notice (.gone consumer)]) =
    .ok ([.done] ++ List.replicate 127 .done ++ [.done, .done, .done, .told none]) := by decide +kernel

/-- C112 (failure). The listener for notices has the number 2, and so has the listener for raw data of a
subscription that its provider gave the number 2. The notice goes to the callback for raw data; and closing the direct
handle takes the raw data listener away and leaves the other. -/
theorem C112_number_fails :
    outs [.openBus 1, .listen 2, .openDirect 5 1 true, .notice (.gone consumer), .closeDirect 5, .unlisten 2] = .fail ∧
    outs [.openBus 1, .listen 2, .openDirect 5 1 true, .notice (.gone consumer), .closeDirect 5] =
      .ok [.done, .done, .done, .misled, .done] := by decide +kernel

/-- C112 (failure). Any client may send to the topic of notices. One that is no JSON text makes every process
that is watching read through NULL, after every history. -/
theorem C112_garbled_fails {h : DisconnectWatch.History} {s : DisconnectWatch.State}
    (hx : Exec DisconnectWatch.step DisconnectWatch.init h s) (ha : DisconnectWatch.Apart h) (hw : Watching h) :
    DisconnectWatch.step s (.notice .bad) = .ub := by
  have I := DisconnectWatch.Exec.inv hx ha
  have hr := (routed_iff hx ha).mpr hw
  have h1 := I.one
  rw [hr] at h1
  obtain ⟨x, w1, w2, w3⟩ := who_some (l := s.slots) (by simp at h1; omega)
  simp [DisconnectWatch.step, deliver, hr, w1, I.own x w2 w3, advisoryCallback, (I.routed hr).2.1]

example : outs [.openBus 1, .openDirect 5 1 true, .notice .bad] = .ub := by decide +kernel

/-- C112 (failure). The router passes on what any client sends to the topic of notices, with the number of the
listener for notices: client 2 can make client 1 drop the subscriptions of anybody, or read through NULL
(`C112_garbled_fails`). -/
theorem C112_forged_fails (payload : Bytes) :
    sent [.connect 1, .connect 2, .message 1 (subMsg 1 Verif.Routing.advisory advisoryId),
      .message 2 (plain Verif.Routing.advisory payload)] =
    .ok [[], [], [], [⟨1, ⟨Verif.Routing.advisory, [], 7, false, false, false, 0, advisoryId⟩, .forwarded payload⟩]] := by
  rfl

end Verif.Props
