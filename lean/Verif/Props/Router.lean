import Verif.Proof.RouterTable
import Verif.Proof.RouterCheck
import Verif.Props.Routing

/-!
# The router: what is delivered to whom
-/

namespace Verif.Props

open Verif Verif.Spec.Routing Verif.Spec.Router
open Verif.Router (Event Message Header Fields Body Delivery Content Orderly Allowed online Clean Act Ask event
  Regular tableRun table0 allNames actNames Elsewhere Fits recipients dispatch boot OwnName
  Forwards Returns Addressed passed returned answer)

/-! ## C18 -/

/-- **C18** for the whole router, as far as it holds: in every history in which clients use the router as
they should, whatever names they use, the router does nothing undefined, and whatever it sends goes to a
client connected at that moment.
Missing: messages that are not in order (`C59_…_fails`, `C58_long_name_fails`), subscribing to the
router's own topics (`C18_router_topic_fails`) or twice to the advisory topic under one id
(`C18_advisory_twice_fails`), and wildcard queries in histories that remove names
(`C18_wildcard_query_fails`). -/
theorem C18_only_connected_partial (removal : Bool) (es : List Event) (h : Orderly removal es) :
    ∃ s₀ s dss, boot = .ok s₀ ∧ Verif.Router.run s₀ es = .ok (s, dss) ∧ dss.length = es.length ∧
      ∀ k ds, dss[k]? = some ds → ∀ d ∈ ds, d.client ∈ online (es.take (k + 1)) := by
  obtain ⟨s₀, G, b1, b2⟩ := Verif.Router.boot_ok removal
  obtain ⟨s, dss, G', r1, -, r3⟩ := Verif.Router.RInv.run es b2 (fun a e b hab => by simpa using h a e b hab)
  have key : ∀ (es pre : List Event) (dss : List (List Delivery)), Verif.Router.AllTo pre es dss →
      dss.length = es.length ∧ ∀ k ds, dss[k]? = some ds → ∀ d ∈ ds, d.client ∈ online (pre ++ es.take (k + 1)) := by
    intro es
    induction es with
    | nil =>
      intro pre dss ha
      cases dss with
      | nil => exact ⟨rfl, by simp⟩
      | cons => exact ha.elim
    | cons e es ih =>
      intro pre dss ha
      cases dss with
      | nil => exact ha.elim
      | cons ds dss =>
        obtain ⟨h1, h2⟩ := ha
        obtain ⟨i1, i2⟩ := ih _ _ h2
        refine ⟨by simp [i1], ?_⟩
        intro k
        cases k with
        | zero =>
          intro ds' hk d hd
          simp only [List.length_cons, Nat.zero_lt_succ, List.getElem?_eq_getElem, List.getElem_cons_zero,
            Option.some.injEq] at hk
          subst hk
          simpa using h1 d hd
        | succ k =>
          intro ds' hk d hd
          have := i2 k ds' (by simpa using hk) d hd
          simpa using this
  obtain ⟨k1, k2⟩ := key es [] dss r3
  exact ⟨s₀, s, dss, b1, r1, k1, by simpa using k2⟩

/-- A history for the examples. -/
def plain (topic : Bytes) (payload : Bytes) : Message :=
  { hdr := ⟨topic, [], 7, false, false, false, 0, 0⟩, payload := payload, body := .bad }

/-- A request for the examples. -/
def request (topic reply : Bytes) (payload : Bytes) (body : Body) : Message :=
  { hdr := ⟨topic, reply, 7, true, false, false, 0, 0⟩, payload := payload, body := body }

/-- Fields for the examples. -/
def noFields : Fields := ⟨none, none, none, none, none, [], none⟩

/-- A subscription for the examples. -/
def subMsg (add : Int) (topic : Bytes) (i : Int) : Message :=
  { hdr := ⟨Verif.Router.subscribeTopic, [], 0, false, false, false, 0, 0⟩, payload := []
    body := .json { noFields with add := some add, topic := some (some topic), routeId := some i } }

/-- Everything sent in a history. -/
def sent (es : List Event) : Res (List (List Delivery)) := do
  let s ← boot
  let r ← Verif.Router.run s es
  pure r.2

/-- A client subscribes to an inbox, adds a name, gets a message and leaves. -/
def story : List Event :=
  [.connect 1, .connect 2, .message 1 (subMsg 1 (topicText "app.INBOX.1") 10),
   .message 1 (subMsg 1 (topicText "A.b") 10), .message 2 (plain (topicText "A.b") [5]), .disconnect 1,
   .message 2 (plain (topicText "A.b") [6])]

example : Orderly true story := Verif.Router.orderly_of_check (by decide +kernel)

example : sent story = .ok [[], [], [], [],
    [⟨1, ⟨topicText "A.b", [], 7, false, false, false, 0, 10⟩, .forwarded [5]⟩], [], []] := by decide +kernel

/-- **C18** fails: when a client subscribes to one of the router's own topics and then unsubscribes, the
router, still going through the routes of this topic, reads the freed one. -/
theorem C18_router_topic_fails :
    sent [.connect 1, .message 1 (subMsg 1 Verif.Router.subscribeTopic 10),
      .message 1 (subMsg 0 Verif.Router.subscribeTopic 10)] = .ub := by decide +kernel

/-- **C18** fails: after an unsubscription that removes the last name of somebody's route, a wildcard
query reads the freed route. -/
theorem C18_wildcard_query_fails :
    sent [.connect 1, .connect 2, .message 1 (subMsg 1 (topicText "A.b") 10), .message 2 (subMsg 0 (topicText "A.b") 0),
      .message 2 (request Verif.Router.wildcardTopic (topicText "x") []
        (.json { noFields with expression := some (some (topicText "A.")) }))] = .ub := by decide +kernel

/-! ## C16 -/

/-- The answer to a request that cannot be delivered: to the reply topic, with the number of the request,
flagged as a response and as undeliverable. -/
def undeliverable (h : Header) (route : Int) : Header :=
  { topic := h.reply, reply := h.reply, seq := h.seq, request := false, response := true, undeliverable := true,
    flags := h.flags, control := route }

/-- **C16**, as far as it holds: after every history in which clients use the router as they should, a
request whose topic has no route is answered to each route of its reply topic, once each, with an empty
message flagged as undeliverable that carries its number; nothing else is sent and nothing changes. If the
reply topic has no route, nothing is sent.
Missing: reply topics that are the router's own, see `C16_reply_to_router_fails`. -/
theorem C16_unroutable_answered_partial (removal : Bool) (es : List Event) (h : Orderly removal es)
    {s₀ s : Verif.Router.State} {dss : List (List Delivery)} (hb : boot = .ok s₀)
    (hrun : Verif.Router.run s₀ es = .ok (s, dss)) (c : Nat) (m : Message) (hc : Clean removal m)
    (hreq : m.hdr.request = true) (hnone : Verif.Routing.lookup s.tree m.hdr.topic = .ok []) :
    ∃ l, Verif.Routing.lookup s.tree m.hdr.reply = .ok l ∧
      Verif.Router.step s (.message c m) =
        .ok (s, (recipients s l).map (fun r => ⟨r.1, undeliverable m.hdr r.2, .forwarded []⟩)) := by
  obtain ⟨s₀', G, b1, b2⟩ := Verif.Router.boot_ok removal
  rw [hb] at b1
  cases b1
  obtain ⟨s', dss', G', r1, r2, -⟩ := Verif.Router.RInv.run es b2 (fun a e b hab => by simpa using h a e b hab)
  rw [hrun] at r1
  cases r1
  obtain ⟨⟨hf, hd⟩, hr, -⟩ := hc
  obtain ⟨f1, f2, f3⟩ := hr hreq
  obtain ⟨p, e1, e2, -⟩ := Verif.Routing.lookup_spec r2.tree (Verif.Routing.tokenize_ok hf.2 hf.1) hd
  rw [hnone] at e2
  have hnil : Verif.Routing.atPath G' p = [] := by simpa using e2
  rw [hnil] at e1
  obtain ⟨l, l1, l2, l3, l4⟩ := r2.lookup_elsewhere f3 f1 f2
  refine ⟨_, l3, ?_⟩
  rw [Verif.Router.step, Verif.Router.dispatch, e1, Res.ok_bind, if_neg (by simp), if_pos hreq, l2, Res.ok_bind,
    r2.visit_clients c (Verif.Router.turned m) l l1 l4]
  rfl

example : sent [.connect 1, .message 1 (subMsg 1 (topicText "app.INBOX.1") 10),
      .message 1 (request (topicText "No.such") (topicText "app.INBOX.1") [1, 2, 3] .bad)] =
    .ok [[], [], [⟨1, ⟨topicText "app.INBOX.1", topicText "app.INBOX.1", 7, false, true, true, 0, 10⟩, .forwarded []⟩]] := by
  decide +kernel

/-- **C16**, as far as it holds: anything else without a route is dropped; in particular answers to
answers are not made. -/
theorem C16_others_dropped_partial (removal : Bool) (es : List Event) (h : Orderly removal es)
    {s₀ s : Verif.Router.State} {dss : List (List Delivery)} (hb : boot = .ok s₀)
    (hrun : Verif.Router.run s₀ es = .ok (s, dss)) (c : Nat) (m : Message) (hc : Clean removal m)
    (hreq : m.hdr.request = false) (hnone : Verif.Routing.lookup s.tree m.hdr.topic = .ok []) :
    Verif.Router.step s (.message c m) = .ok (s, []) := by
  obtain ⟨s₀', G, b1, b2⟩ := Verif.Router.boot_ok removal
  rw [hb] at b1
  cases b1
  obtain ⟨s', dss', G', r1, r2, -⟩ := Verif.Router.RInv.run es b2 (fun a e b hab => by simpa using h a e b hab)
  rw [hrun] at r1
  cases r1
  obtain ⟨⟨hf, hd⟩, hr, -⟩ := hc
  obtain ⟨p, e1, e2, -⟩ := Verif.Routing.lookup_spec r2.tree (Verif.Routing.tokenize_ok hf.2 hf.1) hd
  rw [hnone] at e2
  have hnil : Verif.Routing.atPath G' p = [] := by simpa using e2
  rw [hnil] at e1
  rw [Verif.Router.step, Verif.Router.dispatch, e1, Res.ok_bind, if_neg (by simp), hreq]
  rfl

/-- **C16** fails: a request without a route whose reply topic is one of the router's own is handled as a
message to that topic, with the payload of the request. Here it makes the router route `A.b` to the sender. -/
theorem C16_reply_to_router_fails :
    sent [.connect 1, .connect 2,
      .message 1 (request (topicText "No.such") Verif.Router.subscribeTopic [] (subMsg 1 (topicText "A.b") 3).body),
      .message 2 (plain (topicText "A.b") [9])] =
    .ok [[], [], [], [⟨1, ⟨topicText "A.b", [], 7, false, false, false, 0, 3⟩, .forwarded [9]⟩]] := by decide +kernel

/-! ## C17 -/

/-- **C17** for the whole router, as far as it holds: the router keeps the table of live registrations.
After every history of clients coming, subscribing and unsubscribing (with conventional names), sending
anything else that is in order, and leaving, a message is forwarded exactly to the live routes for its
topic, in the order of registration, unchanged but for the route's id. (Which further names of a route
were accepted is given by `fs`; see C20.)
Missing: names outside the convention. -/
theorem C17_forwards_to_live_partial (as : List Act) (h : Regular as) :
    ∃ s₀ s dss fs, boot = .ok s₀ ∧ Verif.Router.run s₀ (as.map event) = .ok (s, dss) ∧ fs.length = as.length ∧
      Forwards (allNames as) s (tableRun table0 (as.zip fs)) := by
  obtain ⟨s₀, s, dss, fs, G, b1, r1, r2, r3⟩ := h.now
  exact ⟨s₀, s, dss, fs, b1, r1, r2, r3.forwards h.usual.conv⟩

/-- Clients for the examples: 1 has two routes and a further name, 2 a table, and 3 leaves. -/
def acts : List Act :=
  [.connect 1, .connect 2, .connect 3,
   .subscribe 1 [topicText "c1", topicText "INBOX"] 1 ⟨[], 0, false⟩,
   .subscribe 1 [topicText "A", topicText "x"] 2 ⟨[], 0, false⟩,
   .subscribe 1 [topicText "A", topicText "y"] 2 ⟨[topicText "c1", topicText "INBOX"].flatten, 9, false⟩,
   .subscribe 2 [topicText "T", rows] 1 ⟨[], 0, false⟩,
   .subscribe 3 [topicText "A", topicText "x"] 5 ⟨[], 0, false⟩,
   .other 2 (plain (topicText "A.x") [1]),
   .disconnect 3]

theorem acts_regular (as : List Act) (h1 : ∀ n ∈ allNames as, Proper n ∧ ∀ t ∈ n, t.head? = some 123 → t = rows)
    (h2 : ∀ a ∈ allNames as, ∀ b ∈ allNames as, Verif.Routing.checkConv a b = true)
    (h3 : ∀ n ∈ actNames as, Elsewhere (dotted n) ∧ Verif.Router.validString (dotted n) = true)
    (h4 : as.all (fun a => match a with
      | .other _ m => decide (m.hdr.topic ≠ Verif.Router.subscribeTopic)
      | _ => true) = true)
    (h5 : Verif.Router.orderlyB true [] (as.map event) = true) : Regular as := by
  refine ⟨Verif.Routing.conventional_of_check h1 h2, h3, ?_, Verif.Router.orderly_of_check h5⟩
  intro c m hm
  rw [List.all_eq_true] at h4
  simpa using h4 _ hm

example : Regular acts :=
  acts_regular acts (by decide +kernel) (by decide +kernel) (by decide +kernel) (by decide +kernel) (by decide +kernel)

example : Addressed (allNames acts) (topicText "T.7") [topicText "T", topicText "7"] :=
  ⟨Verif.Routing.askable_of_check (by decide +kernel) (by decide +kernel) (by decide +kernel), by decide +kernel,
    by decide +kernel⟩

example : (tableRun table0 (acts.zip (List.replicate 10 true))).receivers [topicText "T", topicText "7"] = [(2, 1)] ∧
    (tableRun table0 (acts.zip (List.replicate 10 true))).receivers [topicText "A", topicText "x"] = [(1, 2)] := by
  decide +kernel

/-- **C16** in terms of the table, as far as it holds: a request for which no route is live goes back to
the live routes of its reply topic, once to each; this changes nothing.
Missing: names outside the convention, reply topics of the router's own (`C16_reply_to_router_fails`). -/
theorem C16_answered_to_live_partial (as : List Act) (h : Regular as) :
    ∃ s₀ s dss fs, boot = .ok s₀ ∧ Verif.Router.run s₀ (as.map event) = .ok (s, dss) ∧ fs.length = as.length ∧
      Returns (allNames as) s (tableRun table0 (as.zip fs)) := by
  obtain ⟨s₀, s, dss, fs, G, b1, r1, r2, r3⟩ := h.now
  exact ⟨s₀, s, dss, fs, b1, r1, r2, r3.returns h.usual.conv⟩

example : Addressed (allNames acts) (topicText "No.such") [topicText "No", topicText "such"] ∧
    Addressed (allNames acts) (topicText "c1.INBOX") [topicText "c1", topicText "INBOX"] ∧
    (tableRun table0 (acts.zip (List.replicate 10 true))).receivers [topicText "No", topicText "such"] = [] ∧
    (tableRun table0 (acts.zip (List.replicate 10 true))).receivers [topicText "c1", topicText "INBOX"] = [(1, 1)] :=
  ⟨⟨Verif.Routing.askable_of_check (by decide +kernel) (by decide +kernel) (by decide +kernel), by decide +kernel,
    by decide +kernel⟩, ⟨Verif.Routing.askable_of_check (by decide +kernel) (by decide +kernel) (by decide +kernel),
    by decide +kernel, by decide +kernel⟩, by decide +kernel, by decide +kernel⟩

/-! ## C18 and C19 in terms of the table -/

/-- **C18** in terms of the table, as far as it holds: when a client leaves, exactly its routes are gone:
every name keeps the routes of the others, in order, and loses those of this client.
Missing: names outside the convention. -/
theorem C18_leave_exact_partial (as : List Act) (c : Nat) (h : Regular (as ++ [.disconnect c])) :
    ∃ s₀ s dss ds s' fs, boot = .ok s₀ ∧ Verif.Router.run s₀ (as.map event) = .ok (s, dss) ∧
      fs.length = as.length ∧ Verif.Router.step s (.disconnect c) = .ok (s', ds) ∧
      let T := tableRun table0 (as.zip fs)
      let T' := T.leave c
      Forwards (allNames as) s T ∧ Forwards (allNames as) s' T' ∧
      ∀ q, T'.receivers q = (T.receivers q).filter (fun r => r.1 ≠ c) := by
  obtain ⟨s₀, s, dss, fs, G, b1, r1, r2, r3⟩ := h.prefix
  obtain ⟨s', ds, b, G', e1, e2⟩ := h.next r3
  have hn : allNames (as ++ [.disconnect c]) = allNames as := by
    simp [allNames, Verif.Router.actNames_append, actNames]
  rw [hn] at r3 e2
  have hc : Conventional (allNames as) := by rw [← hn]; exact h.usual.conv
  exact ⟨s₀, s, dss, ds, s', fs, b1, r1, r2, e1, r3.forwards hc, e2.forwards hc,
    fun q => Verif.Router.receivers_leave r3.distinct c q⟩

example : Regular (acts ++ [.disconnect 2]) :=
  acts_regular _ (by decide +kernel) (by decide +kernel) (by decide +kernel) (by decide +kernel) (by decide +kernel)

/-- **C19**, as far as it holds: when a client unsubscribes from what is its own (a name it made a route
with, or a name such that all registrations there and below are its own), every message is delivered to
the other clients as if it had not.
Missing: unsubscribing from anything else, see `C19_other_client_fails` and `C19_router_topics_fails`. -/
theorem C19_own_names_partial (as : List Act) (c : Nat) (n : Name) (i : Int) (a : Ask)
    (h : Regular (as ++ [.unsubscribe c n i a])) :
    ∃ s₀ s dss ds s' fs, boot = .ok s₀ ∧ Verif.Router.run s₀ (as.map event) = .ok (s, dss) ∧
      fs.length = as.length ∧ Verif.Router.step s (event (.unsubscribe c n i a)) = .ok (s', ds) ∧
      let T := tableRun table0 (as.zip fs)
      Forwards (allNames (as ++ [.unsubscribe c n i a])) s T ∧
      (OwnName T c n → ∀ d m q, Addressed (allNames (as ++ [.unsubscribe c n i a])) m.hdr.topic q →
        ((T.receivers q).filter (fun r => r.1 ≠ c) ≠ [] ∨ m.hdr.request = false) →
        ∃ ds₁ ds₂, Verif.Router.step s (.message d m) = .ok (s, ds₁) ∧
          Verif.Router.step s' (.message d m) = .ok (s', ds₂) ∧
          ds₂.filter (fun x => x.client ≠ c) = ds₁.filter (fun x => x.client ≠ c)) := by
  obtain ⟨s₀, s, dss, fs, G, b1, r1, r2, r3⟩ := h.prefix
  obtain ⟨s', ds, b, G', e1, e2⟩ := h.next r3
  have hf := r3.forwards h.usual.conv
  refine ⟨s₀, s, dss, ds, s', fs, b1, r1, r2, e1, hf, ?_⟩
  intro ho d m q hq hne
  have hr := Verif.Router.receivers_unsubscribe r3.distinct ho q
  have hne1 : ∀ {l : List (Nat × Int)}, l.filter (fun r => r.1 ≠ c) ≠ [] → l ≠ [] := by
    rintro l hl rfl
    exact hl rfl
  have h1 := hf d m q hq (hne.imp_left hne1)
  have h2 := e2.forwards h.usual.conv d m q hq (hne.imp_left (fun hl => hne1 (l := _) (fun h0 => hl (hr.symm.trans h0))))
  refine ⟨_, _, h1, h2, ?_⟩
  rw [List.filter_map, List.filter_map]
  exact congrArg (List.map (passed m)) hr

example : Regular (acts ++ [.unsubscribe 1 [topicText "A", topicText "y"] 2 ⟨[], 0, false⟩]) ∧
    OwnName (tableRun table0 (acts.zip (List.replicate 10 true))) 1 [topicText "A", topicText "y"] :=
  ⟨acts_regular _ (by decide +kernel) (by decide +kernel) (by decide +kernel) (by decide +kernel) (by decide +kernel),
   Or.inr (by decide +kernel)⟩

/-- **C19** fails: client 2 unsubscribes from a name of client 1, which then gets nothing any more. -/
theorem C19_other_client_fails :
    sent [.connect 1, .connect 2, .message 1 (subMsg 1 (topicText "A.b") 10), .message 2 (plain (topicText "A.b") [5]),
      .message 2 (subMsg 0 (topicText "A.b") 0), .message 2 (plain (topicText "A.b") [5])] =
    .ok [[], [], [], [⟨1, ⟨topicText "A.b", [], 7, false, false, false, 0, 10⟩, .forwarded [5]⟩], [], []] := by
  decide +kernel

/-- **C19** fails: any client can take the router's own topics away; nobody can subscribe afterwards. -/
theorem C19_router_topics_fails :
    sent [.connect 1, .connect 2, .message 2 (subMsg 0 (topicText "_RTROUTED") 0),
      .message 1 (subMsg 1 (topicText "A.b") 10), .message 2 (plain (topicText "A.b") [5])] =
    .ok [[], [], [], [], []] := by
  decide +kernel

/-! ## C59 -/

/-- **C59** fails: a subscription that is not JSON makes the router dereference NULL, in every state in
which it serves its subscribe topic alone. -/
theorem C59_bad_subscription_fails (as : List Act) (h : Regular as) :
    ∃ s₀ s dss, boot = .ok s₀ ∧ Verif.Router.run s₀ (as.map event) = .ok (s, dss) ∧
      ∀ c m, m.hdr.topic = Verif.Router.subscribeTopic → m.body = .bad → Verif.Router.step s (.message c m) = .ub := by
  obtain ⟨s₀, s, dss, fs, G, b1, r1, -, r3⟩ := h.now
  refine ⟨s₀, s, dss, b1, r1, ?_⟩
  intro c m ht hb
  rw [r3.request h.usual (by rw [ht]; simp [Verif.Router.ownTopics]), Verif.Router.onMessage, if_pos ht, hb]
  rfl

/-- **C59** fails: so does a diagnostic message that is not JSON or lacks the command. -/
theorem C59_bad_diagnostic_fails (as : List Act) (h : Regular as) :
    ∃ s₀ s dss, boot = .ok s₀ ∧ Verif.Router.run s₀ (as.map event) = .ok (s, dss) ∧
      ∀ c m, m.hdr.topic = Verif.Router.diagTopic → (∀ f, m.body = .json f → f.command = none) →
        Verif.Router.step s (.message c m) = .ub := by
  obtain ⟨s₀, s, dss, fs, G, b1, r1, -, r3⟩ := h.now
  refine ⟨s₀, s, dss, b1, r1, ?_⟩
  intro c m ht hb
  rw [r3.request h.usual (by rw [ht]; simp [Verif.Router.ownTopics]), Verif.Router.onMessage,
    if_neg (by rw [ht]; decide), if_neg (by rw [ht]; decide), if_neg (by rw [ht]; decide), if_neg (by rw [ht]; decide),
    if_neg (by rw [ht]; decide), if_pos ht]
  cases hm : m.body with
  | bad => rfl
  | json f => simp only [Verif.Router.onDiag, hb f hm]; rfl

/-- A subscription message that does not say what to do: a field is missing or of the wrong type, or the
name is too long or has characters that are not printable. -/
def Vague (f : Fields) : Prop :=
  f.add = none ∨ f.routeId = none ∨ f.topic = none ∨ f.topic = some none ∨
    ∃ t, f.topic = some (some t) ∧ (128 ≤ t.length ∨ ∃ b ∈ t, b.toNat < 32 ∨ 126 < b.toNat)

/-- **C59**, as far as it holds: a subscription in JSON that does not say what to do changes nothing; if
it is a request, every route of the reply topic is told that the arguments are invalid, otherwise nobody
is told anything.
Missing: payloads that are not JSON (`C59_bad_subscription_fails`, `C59_bad_diagnostic_fails`). -/
theorem C59_vague_subscription_partial (as : List Act) (h : Regular as) :
    ∃ s₀ s dss fs, boot = .ok s₀ ∧ Verif.Router.run s₀ (as.map event) = .ok (s, dss) ∧ fs.length = as.length ∧
      ∀ c m f qr, m.hdr.topic = Verif.Router.subscribeTopic → m.body = .json f → Vague f →
        Addressed (allNames as) m.hdr.reply qr →
        Verif.Router.step s (.message c m) = .ok (s, if m.hdr.request then
          ((tableRun table0 (as.zip fs)).receivers qr).map (answer m (.result .invalidArg)) else []) := by
  obtain ⟨s₀, s, dss, fs, G, b1, r1, r2, r3⟩ := h.now
  refine ⟨s₀, s, dss, fs, b1, r1, r2, ?_⟩
  intro c m f qr ht hb hv hr
  have hbody : Verif.Router.subscribeBody s c f = .ok (s, .invalidArg, []) := by
    unfold Verif.Router.subscribeBody
    split
    · rename_i a t r e1 e2 e3
      rcases hv with hv | hv | hv | hv | ⟨t', hv, hv'⟩
      · rw [e1] at hv; cases hv
      · rw [e3] at hv; cases hv
      · rw [e2] at hv; cases hv
      · rw [e2] at hv; cases hv
      · rw [e2] at hv
        cases hv
        rw [if_neg]
        intro hval
        simp only [Verif.Router.validString, Bool.and_eq_true, decide_eq_true_eq, List.all_eq_true] at hval
        rcases hv' with hv' | ⟨b, hb, hv'⟩
        · omega
        · have := hval.2 b hb
          omega
    · rfl
  rw [r3.request h.usual (by rw [ht]; simp [Verif.Router.ownTopics]), Verif.Router.onMessage, if_pos ht, hb]
  simp only [Verif.Router.onSubscribe, hbody, Res.ok_bind]
  cases hq : m.hdr.request with
  | true =>
    simp only [if_true]
    rw [r3.answered h.usual hr, Res.ok_bind]
    rfl
  | false => rfl

example : Vague { noFields with add := some 1, topic := some (some [65, 10]), routeId := some 3 } :=
  Or.inr (Or.inr (Or.inr (Or.inr ⟨_, rfl, Or.inr ⟨10, by decide, Or.inl (by decide)⟩⟩)))

example : sent [.connect 1, .message 1 (subMsg 1 (topicText "in") 1),
      .message 1 (request Verif.Router.subscribeTopic (topicText "in") [] (.json { noFields with add := some 1 }))] =
    .ok [[], [], [⟨1, ⟨topicText "in", Verif.Router.subscribeTopic, 7, false, true, false, 0, 1⟩, .result .invalidArg⟩]] := by
  decide +kernel

/-! ## C60 -/

/-- **C60**, as far as it holds: asked for the registered components, the router answers with the names
live routes were made with, those beginning with `_` left out.
Missing: names outside the convention. -/
theorem C60_components_partial (as : List Act) (h : Regular as) :
    ∃ s₀ s dss fs, boot = .ok s₀ ∧ Verif.Router.run s₀ (as.map event) = .ok (s, dss) ∧ fs.length = as.length ∧
      ∀ c m qr, m.hdr.topic = Verif.Router.componentsTopic → m.hdr.request = true →
        Addressed (allNames as) m.hdr.reply qr →
        let T := tableRun table0 (as.zip fs)
        Verif.Router.step s (.message c m) = .ok (s, (T.receivers qr).map
          (answer m (.components ((T.routes.map (fun r => dotted r.main)).filter (fun x => x.head? ≠ some 95))))) := by
  obtain ⟨s₀, s, dss, fs, G, b1, r1, r2, r3⟩ := h.now
  exact ⟨s₀, s, dss, fs, b1, r1, r2, fun c m qr ht hreq hr => r3.components h.usual ht hreq hr⟩

/-- **C60**, as far as it holds: asked for the elements of an object, the router answers with the live
names of the first route made with this name, each once; with none if there is no such route.
Missing: names outside the convention. -/
theorem C60_elements_partial (as : List Act) (h : Regular as) :
    ∃ s₀ s dss fs, boot = .ok s₀ ∧ Verif.Router.run s₀ (as.map event) = .ok (s, dss) ∧ fs.length = as.length ∧
      ∀ c m f qr n, m.hdr.topic = Verif.Router.elementsTopic → m.hdr.request = true →
        Addressed (allNames as) m.hdr.reply qr → m.body = .json f → f.expression = some (some (dotted n)) →
        n ∈ allNames as → dotted n ≠ topicText "_RTROUTED.>" →
        let T := tableRun table0 (as.zip fs)
        ∃ ns : List Name, ns.Nodup ∧
          (∀ x, x ∈ ns ↔ ∃ r, T.routes.find? (fun r => r.main = n) = some r ∧ (x, r.uid) ∈ T.regs) ∧
          Verif.Router.step s (.message c m) = .ok (s, (T.receivers qr).map (answer m (.elements (ns.map dotted)))) := by
  obtain ⟨s₀, s, dss, fs, G, b1, r1, r2, r3⟩ := h.now
  refine ⟨s₀, s, dss, fs, b1, r1, r2, fun c m f qr n ht hreq hr hb hx hn he => ?_⟩
  exact r3.elements h.usual ht hreq hr hb hx hn (by
    have : Verif.Router.ownEntry.expr = topicText "_RTROUTED.>" := by decide +kernel
    rw [this]; exact he)

/-- **C60**, as far as it holds: asked for the objects of elements, the router answers, for each element,
how many live routes it has, and the names these were made with.
Missing: names outside the convention. -/
theorem C60_objects_partial (as : List Act) (h : Regular as) :
    ∃ s₀ s dss fs, boot = .ok s₀ ∧ Verif.Router.run s₀ (as.map event) = .ok (s, dss) ∧ fs.length = as.length ∧
      ∀ c m f qr (qs : List Name), m.hdr.topic = Verif.Router.objectsTopic → m.hdr.request = true →
        Addressed (allNames as) m.hdr.reply qr → m.body = .json f → qs ≠ [] → f.count = some (qs.length : Int) →
        f.items = qs.map (fun q => some (dotted q)) → (∀ q ∈ qs, Addressed (allNames as) (dotted q) q) →
        let T := tableRun table0 (as.zip fs)
        Verif.Router.step s (.message c m) = .ok (s, (T.receivers qr).map
          (answer m (.objects (some (qs.map (fun q => (T.mains q).length), (qs.flatMap T.mains).map dotted))))) := by
  obtain ⟨s₀, s, dss, fs, G, b1, r1, r2, r3⟩ := h.now
  exact ⟨s₀, s, dss, fs, b1, r1, r2, fun c m f qr qs ht hreq hr hb hne hc hi hq =>
    r3.objects h.usual ht hreq hr hb hne hc hi hq⟩

example : sent [.connect 1, .message 1 (subMsg 1 (topicText "in") 1), .message 1 (subMsg 1 (topicText "Obj") 2),
      .message 1 (subMsg 1 (topicText "A.x") 2),
      .message 1 (request Verif.Router.componentsTopic (topicText "in") [] .bad),
      .message 1 (request Verif.Router.elementsTopic (topicText "in") []
        (.json { noFields with expression := some (some (topicText "Obj")) })),
      .message 1 (request Verif.Router.objectsTopic (topicText "in") []
        (.json { noFields with count := some 2, items := [some (topicText "A.x"), some (topicText "No")] }))] =
    .ok [[], [], [], [],
      [⟨1, ⟨topicText "in", Verif.Router.componentsTopic, 7, false, true, false, 0, 1⟩,
        .components [topicText "in", topicText "Obj"]⟩],
      [⟨1, ⟨topicText "in", Verif.Router.elementsTopic, 7, false, true, false, 0, 1⟩,
        .elements [topicText "Obj", topicText "A.x"]⟩],
      [⟨1, ⟨topicText "in", Verif.Router.objectsTopic, 7, false, true, false, 0, 1⟩,
        .objects (some ([1, 0], [topicText "Obj"]))⟩]] := by
  decide +kernel

/-- **C60** fails when two clients register components of the same name: asked for the elements of this component, the
router answers with those of the first alone; the element of the second, though registered, is not named. -/
theorem C60_same_name_fails :
    (∃ (dss : List (List Delivery)) (d : Delivery × Delivery), sent [.connect 1, .connect 2, .message 1 (subMsg 1 (topicText "in") 1),
        .message 1 (subMsg 1 (topicText "Obj") 2), .message 1 (subMsg 1 (topicText "A.x") 2),
        .message 2 (subMsg 1 (topicText "Obj") 3), .message 2 (subMsg 1 (topicText "B.y") 3),
        .message 1 (request Verif.Router.elementsTopic (topicText "in") []
          (.json { noFields with expression := some (some (topicText "Obj")) })),
        .message 1 (request Verif.Router.objectsTopic (topicText "in") []
          (.json { noFields with count := some 1, items := [some (topicText "B.y")] }))] = .ok (dss ++ [[d.1], [d.2]]) ∧
      d.1.content = .elements [topicText "Obj", topicText "A.x"] ∧
      d.2.content = .objects (some ([1], [topicText "Obj"]))) := by
  refine ⟨List.replicate 7 [], (⟨1, ⟨topicText "in", Verif.Router.elementsTopic, 7, false, true, false, 0, 1⟩,
      .elements [topicText "Obj", topicText "A.x"]⟩, ⟨1, ⟨topicText "in", Verif.Router.objectsTopic, 7, false, true, false, 0, 1⟩,
      .objects (some ([1], [topicText "Obj"]))⟩), ?_, rfl, rfl⟩
  decide +kernel

end Verif.Props
