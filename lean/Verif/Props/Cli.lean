import Verif.Model.Cli
import Verif.Props.Client
import Verif.Props.Will

/-! # C80: the command line tool -/

namespace Mercurio

open Spec Server

/-! ## Specification -/

/-- What `-V` stands for. -/
def Spec.NamesVersion (s : Str) (v : ProtocolVersion) : Prop :=
  (s ∈ [str "5", str "5.0", str "v5"] → v = .v5) ∧
  (s ∈ [str "311", str "3.1.1", str "v311"] → v = .v3_1_1) ∧
  (s ∈ [str "31", str "3.1", str "v31"] → v = .v3_1)

/-- What `-q` stands for. -/
def Spec.NamesQos (n : UInt8) (q : QoS) : Prop :=
  (n = 0 ∧ q = .atMostOnce) ∨ (n = 1 ∧ q = .atLeastOnce) ∨ (n = 2 ∧ q = .exactlyOnce)

/-- The CONNECT says what the connection arguments say. -/
structure CliConnection.SaidBy (a : CliConnection) (p : ConnectPacket) : Prop where
  version : NamesVersion a.protocolVersion p.protocolVersion
  /-- no client id is an empty one -/
  clientId : p.payload.clientId = a.clientId.getD []
  cleanStart : p.flags.cleanStart = true
  keepAlive : p.keepalive = a.keepAlive
  userName : p.payload.userName = a.username
  password : p.payload.password = a.password

/-- The line due for a packet that was read: the payload as text, after the topic if asked for. -/
def Spec.lineFor (lossy : Buf → Str) (withTopic : Bool) : ClientIn → Option Str
  | .read (.packet (.publish p)) _ =>
    some ((if withTopic then p.topicName ++ str ": " else []) ++ lossy (p.payload.getD []) ++ str "\n")
  | _ => none

/-- The arguments are texts MQTT can carry. -/
structure CliConnection.Admissible (a : CliConnection) : Prop where
  clientId : OptText a.clientId
  username : OptText a.username
  password : OptText a.password

/-! ## Lemmas -/

theorem cliVersion_names (s : Str) : NamesVersion s (cliVersion s) := by
  refine ⟨fun h => ?_, fun h => ?_, fun h => ?_⟩ <;>
  · simp only [List.mem_cons, List.not_mem_nil, or_false] at h
    rcases h with rfl | rfl | rfl <;> decide +kernel

theorem cliQos_some {n : UInt8} {q : QoS} : cliQos n = some q ↔ NamesQos n q := by
  unfold cliQos NamesQos
  by_cases h0 : n = 0
  · subst h0; cases q <;> simp
  · by_cases h1 : n = 1
    · subst h1; cases q <;> simp
    · by_cases h2 : n = 2
      · subst h2; cases q <;> simp
      · simp [h0, h1, h2]

theorem names_valid {n : UInt8} {q : QoS} (h : NamesQos n q) : q ≠ .invalid := by
  rcases h with ⟨_, rfl⟩ | ⟨_, rfl⟩ | ⟨_, rfl⟩ <;> simp

/-- The options of the connection arguments, field by field. -/
theorem cli_connectOptions (a : CliConnection) : a.connectOptions =
    { host := a.host, port := a.port, clientId := a.clientId, username := a.username, password := a.password
      keepAlive := a.keepAlive, cleanStart := true, will := none, protocolVersion := cliVersion a.protocolVersion
      connectTimeoutSecs := 30, tls := { enabled := a.tls, caPath := a.cafile, skipVerify := a.insecure } } := by
  obtain ⟨h, p, ci, u, pw, k, v, t, ca, i⟩ := a
  cases ci <;> cases u <;> cases pw <;> cases t <;> cases ca <;> cases i <;> rfl

theorem cli_options (a : CliConnection) : a.options =
    { clientId := a.clientId, username := a.username, password := a.password
      keepAlive := a.keepAlive, protocolVersion := cliVersion a.protocolVersion } := by
  rw [CliConnection.options, cli_connectOptions]

theorem sub_options_will {a : SubArgs} {q wq : QoS} {t : Str} (hq : cliQos a.qos = some q)
    (ht : a.willTopic = some t) (hw : cliQos a.willQos = some wq) :
    a.options = some { a.connection.options with
      will := some { topic := t, payload := a.willMessage.getD [], qos := wq, retain := a.willRetain } } := by
  rw [SubArgs.options, SubArgs.connectOptions, hq, ht, hw]
  rfl

theorem sub_options_plain {a : SubArgs} {q : QoS} (hq : cliQos a.qos = some q) (ht : a.willTopic = none) :
    a.options = some a.connection.options := by
  rw [SubArgs.options, SubArgs.connectOptions, hq, ht]
  rfl

theorem cliOptions_admissible {a : CliConnection} (h : a.Admissible) : a.options.Admissible where
  clientId := by rw [cli_options]; exact h.clientId
  username := by rw [cli_options]; exact h.username
  password := by rw [cli_options]; exact fun s hs => (h.password s hs).2
  will := by rw [cli_options]; intro w hw; cases hw

theorem cli_said {a : CliConnection} {o : ConnectOptions} {p : ConnectPacket} (hp : p.Says o)
    (h : o = { a.options with will := o.will }) : a.SaidBy p := by
  have hv : p.protocolVersion = cliVersion a.protocolVersion := by rw [hp.version, h, cli_options]
  refine ⟨?_, ?_, ?_, ?_, ?_, ?_⟩
  · rw [hv]; exact cliVersion_names _
  · rw [hp.clientId, h, cli_options]
  · rw [hp.cleanStart, h, cli_options]
  · rw [hp.keepAlive, h, cli_options]
  · rw [hp.userName, h, cli_options]
  · rw [hp.password, h, cli_options]

theorem disconnect_out (l : Client) (hr : l.running = true) (hb : ¬ l.blocked) :
    (l.step (.disconnect true)).2 =
      { sent := some (.disconnect { reason := .normalDisconnection }), result := some .done } := by
  simp only [Client.step, reduceCtorEq, if_false, hb, hr, if_true, Client.turn, Client.doDisconnect]
  rw [Client.call_true _ _ _ ⟨[0xe0, 1, 0], by decide +kernel⟩]

/-! ## Connecting -/

/-- C80: `mercurio sub` with texts MQTT can carry and QoS levels 0, 1 or 2 sends a CONNECT that the
server, in whatever chunks it arrives, reads as one packet that says what the arguments say; it has a
will exactly if `--will-topic` is given, with that topic, `--will-message` (empty if missing),
`--will-qos` and `--will-retain`. -/
theorem C80_sub_connect (m : Mode) (a : SubArgs) (ha : a.connection.Admissible) (q : QoS)
    (hq : NamesQos a.qos q)
    (hw : ∀ t, a.willTopic = some t → TextField t ∧ (a.willMessage.getD []).length ≤ 65535 ∧
      ∃ wq, NamesQos a.willQos wq) :
    ∃ o bytes p, a.options = some o ∧ (Packet.connect (buildConnect o)).encode = .ok bytes ∧
      a.connection.SaidBy p ∧
      (p.flags.willFlag = true ↔ ∃ t, a.willTopic = some t) ∧
      (∀ t, a.willTopic = some t → p.payload.willTopic = some t ∧
        p.payload.willPayload = some (a.willMessage.getD []) ∧ NamesQos a.willQos p.flags.willQos ∧
        p.flags.willRetain = a.willRetain) ∧
      ∀ cs, Chunks cs → cs.flatten = bytes →
        ∃ cs', readPacket m [] cs = (.packet (.connect p), [], cs') ∧ cs'.flatten = [] := by
  cases ht : a.willTopic with
  | none =>
    rw [sub_options_plain (cliQos_some.mpr hq) ht]
    obtain ⟨bytes, p, h1, h2, h3⟩ := C56_connect m a.connection.options (cliOptions_admissible ha)
    refine ⟨_, bytes, p, rfl, h1, cli_said h2 rfl, ?_, ?_, h3⟩
    · have := (h2.noWill (by rw [cli_options])).1
      simp [this]
    · intro t h; cases h
  | some t =>
    obtain ⟨h1, h2, wq, h3⟩ := hw t ht
    rw [sub_options_will (cliQos_some.mpr hq) ht (cliQos_some.mpr h3)]
    obtain ⟨bytes, p, e1, e2, e3⟩ := C56_connect m { a.connection.options with
          will := some { topic := t, payload := a.willMessage.getD [], qos := wq, retain := a.willRetain } }
      { cliOptions_admissible ha with
        will := by
          intro w hw
          cases hw
          exact ⟨h1, h2, names_valid h3⟩ }
    obtain ⟨w1, w2, w3, w4, w5⟩ := e2.will _ rfl
    refine ⟨_, bytes, p, rfl, e1, cli_said e2 rfl, by simp [w1], ?_, e3⟩
    intro t' ht'
    cases ht'
    exact ⟨w2, w3, by rw [w4]; exact h3, w5⟩

/-- C80: a QoS level other than 0, 1 and 2 is not guessed at: the tool exits without connecting. -/
theorem C80_bad_qos (a : PubArgs) (b : SubArgs) (stdin : Option Str) (client : Option Client)
    (ok1 ok2 : Bool) (between : List ClientIn) :
    (a.qos ≠ 0 ∧ a.qos ≠ 1 ∧ a.qos ≠ 2 → runPublish a stdin client ok1 between ok2 = {}) ∧
    (b.qos ≠ 0 ∧ b.qos ≠ 1 ∧ b.qos ≠ 2 → b.options = none) ∧
    (b.willTopic ≠ none → b.willQos ≠ 0 ∧ b.willQos ≠ 1 ∧ b.willQos ≠ 2 → b.options = none) := by
  have none_of : ∀ n : UInt8, n ≠ 0 ∧ n ≠ 1 ∧ n ≠ 2 → cliQos n = none := by
    rintro n ⟨h0, h1, h2⟩
    simp [cliQos, h0, h1, h2]
  refine ⟨fun h => ?_, fun h => ?_, fun ht h => ?_⟩
  · unfold runPublish
    rw [none_of _ h]
    cases a.payload stdin <;> rfl
  · unfold SubArgs.options SubArgs.connectOptions
    rw [none_of _ h]
    rfl
  · unfold SubArgs.options SubArgs.connectOptions
    cases hb : b.willTopic with
    | none => exact absurd hb ht
    | some t =>
      rw [none_of _ h]
      cases cliQos b.qos <;> rfl

/-- C80 is false for `-V`: an unknown version is not refused, the tool connects with MQTT 5. -/
theorem C80_unknown_version_false (a : CliConnection)
    (h : a.protocolVersion ∉ [str "5", str "5.0", str "v5", str "311", str "3.1.1", str "v311",
      str "31", str "3.1", str "v31"]) :
    (buildConnect a.options).protocolVersion = .v5 := by
  simp only [List.mem_cons, List.not_mem_nil, or_false, not_or] at h
  obtain ⟨h1, h2, h3, h4, h5, h6, h7, h8, h9⟩ := h
  rw [cli_options]
  show cliVersion a.protocolVersion = .v5
  simp [cliVersion, h1, h2, h3, h4, h5, h6, h7, h8, h9]

/-! ## Publishing -/

/-- C80: `mercurio pub` with texts MQTT can carry, a valid topic, a QoS level and a message (from the
command line, or from standard input if there is none): it connects with a CONNECT that says what the
arguments say and has no will.  Once it is connected (`l` is the loop of its client) it sends the message
and then a DISCONNECT, and ends successfully.  The server, on the tool's connection, publishes exactly
this message (topic, payload, QoS, retain flag), and on the DISCONNECT ends the connection without
publishing anything. -/
theorem C80_publish (m : Mode) (a : PubArgs) (ha : a.connection.Admissible) (stdin : Option Str)
    (payload : Str) (hpl : a.message = some payload ∨ (a.message = none ∧ stdin = some payload))
    (q : QoS) (hq : NamesQos a.qos q) (ht : ValidTopic a.topic) (hu : IsUtf8 a.topic)
    (hl : a.topic.length + payload.length + 5 < 2 ^ 28)
    (l : Client) (hr : l.running = true) (hb : ¬ l.blocked) (between : List ClientIn)
    (hbr : ((l.step (.publish a.topic payload q a.retain true)).1.run between).1.running = true)
    (hbb : ¬ ((l.step (.publish a.topic payload q a.retain true)).1.run between).1.blocked) :
    let run := runPublish a stdin (some l) true between true
    (∃ o cbytes p, run.options = some o ∧ (Packet.connect (buildConnect o)).encode = .ok cbytes ∧
      a.connection.SaidBy p ∧ p.flags.willFlag = false ∧
      ∀ cs, Chunks cs → cs.flatten = cbytes →
        ∃ cs', readPacket m [] cs = (.packet (.connect p), [], cs') ∧ cs'.flatten = []) ∧
    run.success = true ∧
    ∃ id sent bytes pk mid, run.outs = { sent := some sent, result := some (.published id) } :: mid ++
        [{ sent := some (.disconnect { reason := .normalDisconnection }), result := some .done }] ∧
      sent.encode = .ok bytes ∧
      (∀ cs, Chunks cs → cs.flatten = bytes →
        ∃ cs', readPacket m [] cs = (.packet pk, [], cs') ∧ cs'.flatten = []) ∧
      (∀ (cfg : AuthConfig) (srv : Server) (k : Nat) (s : Session), srv.at k = some s →
        (srv.step cfg (.recv k pk)).1.world =
          srv.world.publish (.client k) a.topic ⟨id, a.topic, false, q, a.retain, some payload⟩) ∧
      ∀ (cs : List Buf), Chunks cs → cs.flatten = [0xe0, 1, 0] →
        ∃ d cs', readPacket m [] cs = (.packet (.disconnect d), [], cs') ∧ cs'.flatten = [] ∧
        ∀ (cfg : AuthConfig) (srv : Server) (k : Nat) (s : Session), srv.at k = some s →
          ¬ (srv.step cfg (.recv k (.disconnect d))).1.isOpen k ∧
          (srv.step cfg (.recv k (.disconnect d))).1.world.log = srv.world.log := by
  intro run
  have hmsg : a.payload stdin = some payload := by
    unfold PubArgs.payload
    rcases hpl with h | ⟨h1, h2⟩
    · rw [h]
    · rw [h1, h2]
  have hret : (if a.retain = true then true else false) = a.retain := by cases a.retain <;> rfl
  obtain ⟨id, sent, bytes, pk, h1, h2, _, h4, h5⟩ := C60_publish m l hr hb a.topic payload q a.retain ht hu
    (names_valid hq) hl
  have hdisc : (((l.step (.publish a.topic payload q a.retain true)).1.run between).1.step (.disconnect true)).2 =
      { sent := some (.disconnect { reason := .normalDisconnection }), result := some .done } :=
    disconnect_out _ hbr hbb
  have hrun : run = { options := some a.connection.options
                      outs := { sent := some sent, result := some (.published id) } ::
                        ((l.step (.publish a.topic payload q a.retain true)).1.run between).2 ++
                        [{ sent := some (.disconnect { reason := .normalDisconnection }), result := some .done }]
                      success := true } := by
    show runPublish a stdin (some l) true between true = _
    unfold runPublish
    rw [hmsg, cliQos_some.mpr hq, hret]
    simp only [h1, hdisc, decide_true]
  rw [hrun]
  obtain ⟨cbytes, p, e1, e2, e3⟩ := C56_connect m a.connection.options (cliOptions_admissible ha)
  refine ⟨⟨_, cbytes, p, rfl, e1, cli_said e2 rfl, (e2.noWill (by rw [cli_options])).1, e3⟩, rfl,
    id, sent, bytes, pk, _, rfl, h2, h4, h5, ?_⟩
  intro cs hcs hfl
  have hsv : (Packet.disconnect { reason := .normalDisconnection }).Survives := rfl
  have hen : (Packet.disconnect { reason := .normalDisconnection }).encode = .ok [0xe0, 1, 0] := by decide +kernel
  have hfit : FitsMqtt [0xe0, 1, 0] := by unfold FitsMqtt; decide
  obtain ⟨buf', cs', g1, _, _, g4⟩ := readPacket_first m hsv hen hfit [] cs []
    hcs (by simp) (by simpa using hfl)
  obtain ⟨g5, g6⟩ := List.append_eq_nil_iff.mp g4
  subst g5
  refine ⟨_, cs', g1, g6, fun cfg srv k s hs => ?_⟩
  obtain ⟨kk, hk, hh⟩ := at_eq_some.mp hs
  constructor
  · simp only [Server.step, onConn, hk, hh, Server.recv]
    exact not_open_finish _ _ _ _
  · simp only [Server.step, onConn, hk, hh, Server.recv, finish]
    rfl

/-- C80 is false for the exit status, in general: with an invalid topic (`a/#`, say) the tool reports
success as well, although the server publishes nothing and ends the connection. -/
theorem C80_exit_status_false (m : Mode) (a : PubArgs) (payload : Str) (hpl : a.message = some payload)
    (q : QoS) (hq : NamesQos a.qos q) (ht : ¬ ValidTopic a.topic) (hu : TextField a.topic)
    (hl : a.topic.length + payload.length + 5 < 2 ^ 28) (stdin : Option Str) :
    let run := runPublish a stdin (some {}) true [] true
    run.success = true ∧
    ∃ sent bytes pk rest, run.outs.map (·.sent) = some sent :: rest ∧ sent.encode = .ok bytes ∧
      (∀ cs, Chunks cs → cs.flatten = bytes →
        ∃ cs', readPacket m [] cs = (.packet pk, [], cs') ∧ cs'.flatten = []) ∧
      ∀ (cfg : AuthConfig) (srv : Server) (k : Nat) (s : Session), srv.at k = some s → s.will = none →
        (srv.step cfg (.recv k pk)).1.world = srv.world ∧
        ¬ (srv.step cfg (.recv k pk)).1.isOpen k := by
  intro run
  let pk : PublishPacket :=
    { dup := false, qos := q, retain := a.retain, topicName := a.topic
      packetId := if q ≠ .atMostOnce then some 1 else none
      properties := none, payload := some payload }
  have hadm : pk.Admissible := by
    refine ⟨hu, names_valid hq, ?_, fun q h => (by cases h)⟩
    show (if q ≠ .atMostOnce then some (1 : UInt16) else none).isSome ↔ q ≠ .atMostOnce
    split <;> simp_all
  have he : (Packet.publish pk).encode = .ok (frame pk.header pk.body.length pk.body) := by
    obtain ⟨b, hb⟩ : ∃ b, (Packet.publish pk).encode = .ok b := ⟨_, rfl⟩
    rw [hb, PublishPacket.encode_inv hb]
  have hf : FitsMqtt (frame pk.header pk.body.length pk.body) := by
    apply fits_frame
    have e1 : (encodeOpt encodeU16 pk.packetId).length ≤ 2 := by
      rw [encodeOpt_length _ (fun _ => 2) encodeU16_length]
      cases pk.packetId <;> simp [optSize]
    have e2 : (encodeBlock (optProps PublishProperties.toProps pk.properties)).length = 1 := by
      show (encodeBlock []).length = 1
      decide
    simp only [PublishPacket.body, List.length_append, str_len, e2]
    show a.topic.length + 2 + _ + 1 + payload.length < _
    omega
  have hstep : Client.step {} (.publish a.topic payload q a.retain true) =
      ({ counter := if q ≠ .atMostOnce then 2 else 1 },
       { sent := some (.publish pk), result := some (.published pk.packetId) }) := by
    have hnb : ¬ Client.blocked {} := by decide
    simp only [Client.step, reduceCtorEq, if_false, hnb, if_true, Client.turn, Client.doPublish]
    rw [Client.call_true _ _ _ ⟨_, rfl⟩]
    have h2 : (1 : UInt16) + 1 = 2 := by decide
    cases q <;> simp [pk, h2]
  have hdisc : ∀ l : Client, l.running = true → l.pending = [] → (l.step (.disconnect true)).2 =
      { sent := some (.disconnect { reason := .normalDisconnection }), result := some .done } := by
    intro l hr hp
    have hnb : ¬ l.blocked := by unfold Client.blocked; rw [hp]; decide
    exact disconnect_out l hr hnb
  have hret : (if a.retain = true then true else false) = a.retain := by cases a.retain <;> rfl
  have hrun : run.success = true ∧ run.outs = [{ sent := some (.publish pk), result := some (.published pk.packetId) },
      { sent := some (.disconnect { reason := .normalDisconnection }), result := some .done }] := by
    show (runPublish a stdin (some {}) true [] true).success = true ∧
      (runPublish a stdin (some {}) true [] true).outs = _
    unfold runPublish
    rw [show a.payload stdin = some payload by unfold PubArgs.payload; rw [hpl], cliQos_some.mpr hq, hret]
    simp only [hstep, Client.run]
    rw [hdisc _ rfl rfl]
    simp
  refine ⟨hrun.1, .publish pk, _, .publish pk.received, _, by rw [hrun.2]; rfl, he, ?_, ?_⟩
  · intro cs hcs hfl
    obtain ⟨buf', cs', h1, _, _, h4⟩ := readPacket_first m (p := .publish pk) hadm he hf [] cs []
      hcs (by simp) (by simpa using hfl)
    obtain ⟨h5, h6⟩ := List.append_eq_nil_iff.mp h4
    subst h5
    exact ⟨cs', h1, h6⟩
  · intro cfg srv k s hs hw
    obtain ⟨h1, _, h3, _⟩ := C35_invalid_topic cfg srv k s hs pk.received ht
    exact ⟨h3 hw, h1⟩

/-! ## Subscribing -/

/-- C80: `mercurio sub` subscribes to exactly the topics given, each with the QoS given; over any length
of time on a connection that stays up, the lines it prints are, in order and each once, those of the
messages that arrived (`taken`: it has taken all events), each with its topic if asked for and its
payload. -/
theorem C80_sub (lossy : Buf → Str) (a : SubArgs) (q : QoS) (hq : NamesQos a.qos q)
    (l : Client) (hr : l.running = true) (hb : ¬ l.blocked) (hl : l.pending = []) (is : List ClientIn)
    (hf : Flowing l is) (hi : ∀ i ∈ is, StaysUp i) :
    (∃ call id, a.call true = some call ∧ (l.step call).2.sent = some (.subscribe
      { packetId := id, properties := none,
        payload := a.topics.map fun t => { topicFilter := t, opts := { qos := q } } })) ∧
    let arrived := is.filterMap (lineFor lossy a.printTopic)
    cliPrint lossy a.printTopic ((l.run is).2.filterMap (·.event)) <+: arrived ∧
    ((l.run is).1.pending = [] → cliPrint lossy a.printTopic ((l.run is).2.filterMap (·.event)) = arrived) := by
  constructor
  · refine ⟨.subscribe (a.topics.map fun t => (t, q)) true, l.counter, ?_, ?_⟩
    · unfold SubArgs.call; rw [cliQos_some.mpr hq]; rfl
    · simp only [Client.step, reduceCtorEq, if_false, hb, hr, if_true, Client.turn, Client.doSubscribe]
      rw [Client.call_true _ _ _ ⟨_, rfl⟩]
      simp [List.map_map, Function.comp_def]
  · intro arrived
    obtain ⟨h1, _⟩ := C59_all_messages is l hr hf hi
    rw [hl, List.nil_append] at h1
    have hline : ∀ j, (messageOf j = none ∧ lineFor lossy a.printTopic j = none) ∨
        ∃ p ok, j = .read (.packet (.publish p)) ok := by
      intro j
      unfold messageOf lineFor
      split
      · rename_i p ok; exact Or.inr ⟨p, ok, rfl⟩
      · rename_i h
        left
        refine ⟨rfl, ?_⟩
        split
        · rename_i p ok; exact absurd rfl (h p ok)
        · rfl
    have hprint : ∀ js : List ClientIn, cliPrint lossy a.printTopic (js.filterMap messageOf) =
        js.filterMap (lineFor lossy a.printTopic) := by
      intro js
      induction js with
      | nil => rfl
      | cons j js ih =>
        rcases hline j with ⟨h1, h2⟩ | ⟨p, ok, rfl⟩
        · simp only [List.filterMap_cons, h1, h2, ih]
        · simp only [List.filterMap_cons, messageOf, lineFor, PublishPacket.event, cliPrint, cliLine, ih]
          cases a.printTopic <;> simp
    have hpre : ∀ xs ys : List ClientEvent, cliPrint lossy a.printTopic xs <+:
        cliPrint lossy a.printTopic (xs ++ ys) := by
      intro xs ys
      induction xs with
      | nil => exact ⟨_, rfl⟩
      | cons x xs ih =>
        cases x with
        | message t pl qq r =>
          obtain ⟨z, hz⟩ := ih
          exact ⟨z, by simp only [List.cons_append, cliPrint, hz]⟩
        | disconnected r => exact ⟨[], rfl⟩
    constructor
    · have := hpre ((l.run is).2.filterMap (·.event)) (l.run is).1.pending
      rw [h1, hprint] at this
      exact this
    · intro hp
      rw [hp, List.append_nil] at h1
      rw [h1, hprint]

/-! ## Examples -/

/-- `mercurio pub -t a/b -m hi -q 1 -r -i tool -u u -P p -k 30 -V 3.1.1`. -/
def exPubArgs : PubArgs :=
  { connection := { clientId := some (str "tool"), username := some (str "u"), password := some (str "p")
                    keepAlive := 30, protocolVersion := str "3.1.1" }
    topic := str "a/b", message := some (str "hi"), qos := 1, retain := true }

example : exPubArgs.connection.Admissible ∧ NamesQos exPubArgs.qos .atLeastOnce ∧
    ValidTopic exPubArgs.topic ∧ IsUtf8 exPubArgs.topic ∧
    (runPublish exPubArgs none (some {}) true [.read (.packet (.pubAck ⟨1, .success, none⟩)) true] true) =
      { options := some { clientId := some (str "tool"), username := some (str "u"), password := some (str "p")
                          keepAlive := 30, protocolVersion := .v3_1_1 }
        outs := [{ sent := some (.publish { dup := false, qos := .atLeastOnce, retain := true, topicName := str "a/b"
                                            packetId := some 1, payload := some (str "hi") })
                   result := some (.published (some 1)) }, {},
                 { sent := some (.disconnect { reason := .normalDisconnection }), result := some .done }]
        success := true } := by
  refine ⟨⟨by intro s h; cases h; decide, by intro s h; cases h; decide, by intro s h; cases h; decide⟩,
    Or.inr (Or.inl ⟨rfl, rfl⟩), ⟨by decide, by decide, by decide, by decide, by decide⟩, by decide, by decide +kernel⟩

/-- `mercurio sub -t a -t b/# -q 2 -T --will-topic w --will-qos 1`. -/
def exSubArgs : SubArgs :=
  { topics := [str "a", str "b/#"], qos := 2, printTopic := true, willTopic := some (str "w"), willQos := 1 }

example : exSubArgs.connection.Admissible ∧ NamesQos exSubArgs.qos .exactlyOnce ∧
    NamesQos exSubArgs.willQos .atLeastOnce ∧
    cliPrint id true ((Client.run {} [.read (.packet (.publish samplePublish)) true, .recv]).2.filterMap (·.event)) =
      [samplePublish.topicName ++ str ": " ++ (samplePublish.payload.getD []) ++ str "\n"] :=
  ⟨⟨(by intro s h; cases h), (by intro s h; cases h), (by intro s h; cases h)⟩,
    Or.inr (Or.inr ⟨rfl, rfl⟩), Or.inr (Or.inl ⟨rfl, rfl⟩), by decide +kernel⟩

/-- An invalid topic and an unknown version. -/
example : ¬ ValidTopic (str "a/#") ∧ TextField (str "a/#") ∧
    str "4" ∉ [str "5", str "5.0", str "v5", str "311", str "3.1.1", str "v311", str "31", str "3.1", str "v31"] := by
  exact ⟨fun h => absurd h.no_hash (by decide), by decide, by decide +kernel⟩

end Mercurio
