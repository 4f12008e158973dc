import Verif.Spec.Dial
import Verif.Props.Cli
import Verif.Props.Daemon

/-!
# Options and connecting: C71, C96, C97, and the address of C80
-/

namespace Mercurio

open Spec Server

/-! ## C96: the options -/

theorem lastSet_snoc {α : Type} (f : Setting → Option α) (calls : List Setting) (s : Setting) (d : α) :
    lastSet f (calls ++ [s]) d = (f s).getD (lastSet f calls d) := by
  unfold lastSet
  rw [List.filterMap_append]
  cases h : f s with
  | none => simp [h]
  | some a => simp [h]

theorem buildOptions_snoc (host : Str) (port : UInt16) (calls : List Setting) (s : Setting) :
    buildOptions host port (calls ++ [s]) = Setting.apply (buildOptions host port calls) s := by
  simp [buildOptions]

/-- C96: whatever calls an application makes on its options, in whatever order and how often, each
option is the last value it was given; host and port are those it began with; an option never set has
its default: MQTT 5, a clean start, keep-alive 60, a timeout of 30 seconds, no client id, credentials
or will, no TLS. -/
theorem C96_last_set (host : Str) (port : UInt16) (calls : List Setting) :
    let o := buildOptions host port calls
    o.host = host ∧ o.port = port ∧
    o.clientId = lastSet (fun | .clientId s => some (some s) | _ => none) calls none ∧
    o.username = lastSet (fun | .username s => some (some s) | _ => none) calls none ∧
    o.password = lastSet (fun | .password b => some (some b) | _ => none) calls none ∧
    o.keepAlive = lastSet (fun | .keepAlive k => some k | _ => none) calls 60 ∧
    o.cleanStart = lastSet (fun | .cleanStart b => some b | _ => none) calls true ∧
    o.will = lastSet (fun | .will w => some (some w) | _ => none) calls none ∧
    o.protocolVersion = lastSet (fun | .version v => some v | _ => none) calls .v5 ∧
    o.connectTimeoutSecs = lastSet (fun | .connectTimeout s => some s | _ => none) calls 30 ∧
    o.tls.enabled = lastSet (fun | .tls b => some b | _ => none) calls false ∧
    o.tls.caPath = lastSet (fun | .caPath p => some (some p) | _ => none) calls none ∧
    o.tls.skipVerify = lastSet (fun | .skipVerify b => some b | _ => none) calls false := by
  induction calls using snoc_induction with
  | h0 => exact ⟨rfl, rfl, rfl, rfl, rfl, rfl, rfl, rfl, rfl, rfl, rfl, rfl, rfl⟩
  | hs calls s ih =>
    simp only [buildOptions_snoc, lastSet_snoc]
    obtain ⟨h1, h2, h3, h4, h5, h6, h7, h8, h9, h10, h11, h12, h13⟩ := ih
    cases s <;>
      exact ⟨by assumption, by assumption, by first | rfl | assumption, by first | rfl | assumption,
        by first | rfl | assumption, by first | rfl | assumption, by first | rfl | assumption,
        by first | rfl | assumption, by first | rfl | assumption, by first | rfl | assumption,
        by first | rfl | assumption, by first | rfl | assumption, by first | rfl | assumption⟩

/-- Three calls, one of them repeated. -/
def exSettingCalls : List Setting := [.keepAlive 10, .clientId (str "me"), .tls true, .keepAlive 20]

example : (buildOptions (str "h") 1 exSettingCalls).keepAlive = 20 ∧
    (buildOptions (str "h") 1 exSettingCalls).clientId = some (str "me") ∧
    (buildOptions (str "h") 1 exSettingCalls).tls.enabled = true ∧
    (buildOptions (str "h") 1 exSettingCalls).cleanStart = true := by decide +kernel

/-- C96: a will is what it was made with; its QoS is 0 and it is not retained unless set, each setting
leaves the rest alone. -/
theorem C96_will (topic : Str) (payload : Buf) (q : QoS) (r : Bool) :
    ClientWill.new topic payload = ⟨topic, payload, .atMostOnce, false⟩ ∧
    ∀ w : ClientWill, w.setQos q = ⟨w.topic, w.payload, q, w.retain⟩ ∧
      w.setRetain r = ⟨w.topic, w.payload, w.qos, r⟩ :=
  ⟨rfl, fun _ => ⟨rfl, rfl⟩⟩

example : ((ClientWill.new (str "t") [1]).setQos .atLeastOnce).setRetain true =
    ⟨str "t", [1], .atLeastOnce, true⟩ := by decide +kernel

/-- C96: the CONNECT the server reads says what the calls said last. -/
theorem C96_connect (m : Mode) (host : Str) (port : UInt16) (calls : List Setting)
    (h : (buildOptions host port calls).toConnectOptions.Admissible) :
    ∃ bytes p, (Packet.connect (buildConnect (buildOptions host port calls).toConnectOptions)).encode = .ok bytes ∧
      p.protocolVersion = lastSet (fun | .version v => some v | _ => none) calls .v5 ∧
      p.payload.clientId = (lastSet (fun | .clientId s => some s | _ => none) calls []) ∧
      p.flags.cleanStart = lastSet (fun | .cleanStart b => some b | _ => none) calls true ∧
      p.keepalive = lastSet (fun | .keepAlive k => some k | _ => none) calls 60 ∧
      p.payload.userName = lastSet (fun | .username s => some (some s) | _ => none) calls none ∧
      p.payload.password = lastSet (fun | .password b => some (some b) | _ => none) calls none ∧
      (p.flags.willFlag = true ↔ ∃ w, .will w ∈ calls) ∧
      (∀ w, lastSet (fun | .will w => some (some w) | _ => none) calls none = some w →
        p.payload.willTopic = some w.topic ∧ p.payload.willPayload = some w.payload ∧
        p.flags.willQos = w.qos ∧ p.flags.willRetain = w.retain) ∧
      ∀ cs, Chunks cs → cs.flatten = bytes →
        ∃ cs', readPacket m [] cs = (.packet (.connect p), [], cs') ∧ cs'.flatten = [] := by
  obtain ⟨_, _, h3, h4, h5, h6, h7, h8, h9, _⟩ := C96_last_set host port calls
  obtain ⟨bytes, p, e1, e2, e3⟩ := C56_connect m _ h
  have hid : ∀ l : List Setting, (lastSet (fun | .clientId s => some (some s) | _ => none) l none).getD [] =
      lastSet (fun | .clientId s => some s | _ => none) l [] := by
    intro l
    induction l using snoc_induction with
    | h0 => rfl
    | hs l s ih =>
      simp only [lastSet_snoc]
      cases s <;> first | exact ih | rfl
  have hw : ∀ l : List Setting, lastSet (fun | .will w => some (some w) | _ => none) l none = none ↔
      ∀ w, .will w ∉ l := by
    intro l
    induction l using snoc_induction with
    | h0 => simp [lastSet]
    | hs l s ih =>
      simp only [lastSet_snoc]
      cases s with
      | will w =>
        simp only [Option.getD_some, reduceCtorEq, false_iff]
        exact fun h => h w (by simp)
      | _ => simp [ih]
  refine ⟨bytes, p, e1, e2.version.trans h9, ?_, e2.cleanStart.trans h7, e2.keepAlive.trans h6,
    e2.userName.trans h4, e2.password.trans h5, ?_, ?_, e3⟩
  · rw [e2.clientId, h3, hid]
  · constructor
    · intro hf
      refine Classical.byContradiction fun hn => ?_
      have := (e2.noWill (h8.trans ((hw calls).mpr (fun w hm => hn ⟨w, hm⟩)))).1
      rw [this] at hf; cases hf
    · rintro ⟨w, hm⟩
      cases ho : (buildOptions host port calls).will with
      | none => exact absurd hm ((hw calls).mp (h8 ▸ ho) w)
      | some w' => exact (e2.will w' ho).1
  · intro w hlast
    exact (e2.will w (h8.trans hlast)).2

example : (buildOptions (str "h") 1 exSettingCalls).toConnectOptions.Admissible :=
  ⟨fun s hs => (by cases hs; exact ⟨by decide +kernel, by decide +kernel⟩), fun s hs => (by cases hs),
    fun s hs => (by cases hs), fun w hw => (by cases hw)⟩

/-! ## C97: connecting -/

theorem withTimeout_some {α : Type} {now : Nat} {secs : UInt64} {op : NetOp α} {t : Nat} {r : α}
    (hc : (now + 1000 * secs.toNat) / 1000 < 2 ^ 63) :
    withTimeout now secs op = (t, some r) ↔ EndsBy op now (1000 * secs.toNat) t r := by
  have hs : sleepUntil now (1000 * secs.toNat) = now + 1000 * secs.toNat := by
    unfold sleepUntil instantAdd instantMaxSecs
    rw [if_pos (by omega)]
  unfold withTimeout EndsBy
  rw [hs]
  cases ht : op.takes with
  | none => simp
  | some d =>
    simp only [Nat.add_le_add_iff_left]
    by_cases hd : d ≤ 1000 * secs.toNat
    · simp only [hd, if_true, Prod.mk.injEq, Option.some.injEq]
      constructor
      · rintro ⟨rfl, rfl⟩; exact ⟨rfl, d, rfl, hd, rfl⟩
      · rintro ⟨rfl, d', rfl, _, rfl⟩; exact ⟨rfl, rfl⟩
    · simp only [hd, if_false, Prod.mk.injEq, reduceCtorEq, and_false, Option.some.injEq, false_iff]
      rintro ⟨_, d', rfl, h, _⟩
      exact hd h

theorem withTimeout_le {α : Type} {now : Nat} {secs : UInt64} (op : NetOp α)
    (hc : (now + 1000 * secs.toNat) / 1000 < 2 ^ 63) :
    (withTimeout now secs op).1 ≤ now + 1000 * secs.toNat := by
  have hs : sleepUntil now (1000 * secs.toNat) = now + 1000 * secs.toNat := by
    unfold sleepUntil instantAdd instantMaxSecs
    rw [if_pos (by omega)]
  unfold withTimeout
  rw [hs]
  cases ht : op.takes with
  | none => exact Nat.le_refl _
  | some d =>
    simp only
    split
    · assumption
    · exact Nat.le_refl _

theorem buildConnector_iff (lib : Rustls) (files : PemFiles) (o : TlsOptions) (host : Str) (c : Connector) :
    buildConnector lib files o host = some c ↔ lib.name host = true ∧ ChecksAs files o c ∧
      (∀ roots, c = .checked roots → ∀ r ∈ roots, lib.root r = true) := by
  unfold buildConnector
  cases hn : lib.name host with
  | false => simp
  | true =>
    simp only [if_true, true_and]
    cases hv : o.skipVerify with
    | true =>
      simp only [if_true, Option.some.injEq]
      cases c <;> simp [ChecksAs, hv]
    | false =>
      simp only [Bool.false_eq_true, if_false]
      cases hca : o.caPath with
      | none => cases c <;> simp [ChecksAs, hv, hca]
      | some ca =>
        simp only
        cases hl : loadCerts files ca with
        | none =>
          have : ∀ certs items, files ca = some items → ¬ CertsIn items certs := by
            intro certs items h1 h2
            have := (loadCerts_iff files ca certs).mpr ⟨items, h1, h2⟩
            rw [hl] at this; cases this
          cases c with
          | checked roots =>
            simp only [reduceCtorEq, false_iff, not_and]
            rintro ⟨_, ca', items, h1, h2, h3⟩
            rw [hca] at h1; cases h1
            exact absurd h3 (this _ _ h2)
          | _ => simp [ChecksAs, hv, hca]
        | some roots =>
          obtain ⟨items, hi, hci⟩ := (loadCerts_iff files ca roots).mp hl
          have huniq : ∀ certs items', files ca = some items' → CertsIn items' certs → certs = roots := by
            intro certs items' h1 h2
            have := (loadCerts_iff files ca certs).mpr ⟨items', h1, h2⟩
            rw [hl] at this; cases this; rfl
          simp only
          cases c with
          | unchecked =>
            by_cases hr : roots.all lib.root = true <;> simp [hr, ChecksAs, hv]
          | system =>
            by_cases hr : roots.all lib.root = true <;> simp [hr, ChecksAs, hca]
          | checked roots' =>
            constructor
            · intro h
              by_cases hr : roots.all lib.root = true
              · rw [if_pos hr] at h
                cases h
                refine ⟨⟨hv, ca, items, hca, hi, hci⟩, fun rs e r hm => ?_⟩
                cases e
                exact List.all_eq_true.mp hr r hm
              · rw [if_neg hr] at h; cases h
            · rintro ⟨⟨_, ca', items', h1, h2, h3⟩, h4⟩
              rw [hca] at h1; cases h1
              have := huniq _ _ h2 h3
              subst this
              rw [if_pos (List.all_eq_true.mpr (h4 _ rfl))]

theorem performConnect_connected {o : ConnectOptions} {x : ReadOut} {id : Str} {k : UInt16} :
    performConnect o (.read x) = .connected id k ↔ ∃ ack, x = .packet (.connAck ack) ∧
      ack.reasonCode = .success ∧
      id = ((ack.properties.bind ConnAckProperties.assignedClientId).getD (o.clientId.getD [])) ∧
      k = o.keepAlive := by
  cases x with
  | packet p =>
    cases p with
    | connAck ack =>
      simp only [performConnect]
      by_cases h : ack.reasonCode = .success
      · simp [h, eq_comm]
      · simp [h]
    | _ => simp [performConnect]
  | error e => cases e <;> simp [performConnect]
  | _ => simp [performConnect]

/-- What the last part of `connect` comes to. -/
theorem dialSession_connected {net : Network} {o : ClientOptions} {addr : Str} {kind : StreamKind}
    {conn : Option Connector} {now : Nat} {id : Str} {k : UInt16} {t : Nat}
    (hc : (now + net.write.takes.getD 0 + 1000 * o.connectTimeoutSecs.toNat) / 1000 < 2 ^ 63) :
    ((dialSession net o addr kind conn now).result = .connected id k ∧
      (dialSession net o addr kind conn now).ended = t) ↔
    ∃ w bytes ack, (Packet.connect (buildConnect o.toConnectOptions)).encode = .ok bytes ∧
      net.write.takes = some w ∧ net.write.result = true ∧
      EndsBy net.read (now + w) (1000 * o.connectTimeoutSecs.toNat) t (.packet (.connAck ack)) ∧
      ack.reasonCode = .success ∧
      id = ((ack.properties.bind ConnAckProperties.assignedClientId).getD (o.clientId.getD [])) ∧
      k = o.keepAlive := by
  unfold dialSession
  cases he : (Packet.connect (buildConnect o.toConnectOptions)).encode with
  | panic => simp
  | err e => simp
  | ok bytes =>
    cases hw : net.write.takes with
    | none => simp
    | some w =>
      cases hr : net.write.result with
      | false => simp
      | true =>
        rw [hw] at hc
        simp only [Option.getD_some] at hc
        simp only [if_true]
        constructor
        · cases hx : (withTimeout (now + w) o.connectTimeoutSecs net.read) with
          | mk t' x =>
            cases x with
            | none => rintro ⟨h, _⟩; simp [performConnect] at h
            | some x =>
              rintro ⟨h, rfl⟩
              simp only at h
              cases hp : performConnect o.toConnectOptions (.read x) with
              | connected id' k' =>
                rw [hp] at h
                cases h
                obtain ⟨ack, rfl, h1, h2, h3⟩ := performConnect_connected.mp hp
                exact ⟨w, bytes, ack, rfl, rfl, trivial, (withTimeout_some hc).mp hx, h1, h2, h3⟩
              | failed e => rw [hp] at h; cases h
              | panicked => rw [hp] at h; cases h
        · rintro ⟨w', bytes', ack, _, h2, _, h4, h5, h6, h7⟩
          cases h2
          rw [(withTimeout_some hc).mpr h4]
          simp only
          rw [performConnect_connected.mpr ⟨ack, rfl, h5, h6, h7⟩]
          simp

/-- C97: `connect` returns a client exactly if the server was reached at `host:port`, the TLS handshake
succeeded (if TLS is on), the CONNECT was written and a CONNACK with success came back, each of the
network's answers within the timeout; the client id is the one assigned by the server or else the one of
the options. -/
theorem C97_connected (lib : Rustls) (files : PemFiles) (net : Network) (o : ClientOptions) (now : Nat)
    (hc : InClock net o now) (id : Str) (k : UInt16) (t : Nat) :
    ((dial lib files net o now).result = .connected id k ∧ (dial lib files net o now).ended = t) ↔
    Connects lib files net o now id k t := by
  have hc' := hc
  unfold InClock at hc'
  generalize hT : 1000 * o.connectTimeoutSecs.toNat = T at hc'
  have hc1 : (now + 1000 * o.connectTimeoutSecs.toNat) / 1000 < 2 ^ 63 := by rw [hT]; omega
  unfold dial Connects
  simp only [dialAddress]
  generalize ha : net.tcp (o.host ++ str ":" ++ str (toString o.port.toNat)) = op
  have no : ∀ {t' : Nat} {b : Option Bool}, b ≠ some true → withTimeout now o.connectTimeoutSecs op = (t', b) →
      ∀ t1, ¬ EndsBy op now (1000 * o.connectTimeoutSecs.toNat) t1 true := by
    intro t' b hb hw t1 h
    rw [(withTimeout_some hc1).mpr h] at hw
    cases hw
    exact hb rfl
  cases hx : withTimeout now o.connectTimeoutSecs op with
  | mk t1 b =>
    match b, hx with
    | none, hx =>
      simp only [reduceCtorEq, false_and, false_iff]
      rintro ⟨t1', t2, w, bytes, ack, h, _⟩
      exact no (by simp) hx _ h
    | some false, hx =>
      simp only [reduceCtorEq, false_and, false_iff]
      rintro ⟨t1', t2, w, bytes, ack, h, _⟩
      exact no (by simp) hx _ h
    | some true, hx =>
      simp only
      have he := (withTimeout_some hc1).mp hx
      have hu : ∀ t1', EndsBy op now (1000 * o.connectTimeoutSecs.toNat) t1' true → t1' = t1 := by
        rintro t1' ⟨_, d, h1, _, h2⟩
        obtain ⟨_, d', h3, _, h4⟩ := he
        rw [h1] at h3; cases h3
        rw [h2, h4]
      have hle1 : t1 ≤ now + T := by
        obtain ⟨_, d, _, h1, h2⟩ := he
        rw [hT] at h1
        omega
      cases hen : o.tls.enabled with
      | false =>
        simp only [Bool.false_eq_true, if_false, false_imp_iff, true_and]
        rw [dialSession_connected (by rw [hT]; omega)]
        constructor
        · rintro ⟨w, bytes, ack, h1, h2, h3, h4, h5, h6, h7⟩
          exact ⟨t1, t1, w, bytes, ack, he, fun _ => rfl, h1, h2, h3, h4, h5, h6, h7⟩
        · rintro ⟨t1', t2, w, bytes, ack, h0, h0', h1, h2, h3, h4, h5, h6, h7⟩
          cases hu _ h0
          cases h0' trivial
          exact ⟨w, bytes, ack, h1, h2, h3, h4, h5, h6, h7⟩
      | true =>
        have hc2 : (t1 + 1000 * o.connectTimeoutSecs.toNat) / 1000 < 2 ^ 63 := by rw [hT]; omega
        simp only [if_true, true_imp_iff, Bool.true_eq_false, false_imp_iff, true_and]
        cases hb : buildConnector lib files o.tls o.host with
        | none =>
          simp only [reduceCtorEq, false_and, false_iff]
          rintro ⟨t1', t2, w, bytes, ack, _, ⟨hn, c, h1, h2, _⟩, _⟩
          have := (buildConnector_iff lib files o.tls o.host c).mpr ⟨hn, h1, h2⟩
          rw [hb] at this; cases this
        | some c =>
          simp only
          obtain ⟨hn, hck, hro⟩ := (buildConnector_iff lib files o.tls o.host c).mp hb
          have hcu : ∀ c', ChecksAs files o.tls c' →
              (∀ roots, c' = .checked roots → ∀ r ∈ roots, lib.root r = true) → c' = c := by
            intro c' h1 h2
            have := (buildConnector_iff lib files o.tls o.host c').mpr ⟨hn, h1, h2⟩
            rw [hb] at this; cases this; rfl
          have no2 : ∀ {t' : Nat} {b : Option Bool}, b ≠ some true →
              withTimeout t1 o.connectTimeoutSecs (net.handshake c) = (t', b) →
              ∀ t2, ¬ EndsBy (net.handshake c) t1 (1000 * o.connectTimeoutSecs.toNat) t2 true := by
            intro t' b hb hw t2 h
            rw [(withTimeout_some hc2).mpr h] at hw
            cases hw
            exact hb rfl
          cases hy : withTimeout t1 o.connectTimeoutSecs (net.handshake c) with
          | mk t2 b2 =>
            match b2, hy with
            | none, hy =>
              simp only [reduceCtorEq, false_and, false_iff]
              rintro ⟨t1', t2', w, bytes, ack, h0, ⟨_, c', h1, h2, h3⟩, _⟩
              cases hu _ h0
              cases hcu c' h1 h2
              exact no2 (by simp) hy _ h3
            | some false, hy =>
              simp only [reduceCtorEq, false_and, false_iff]
              rintro ⟨t1', t2', w, bytes, ack, h0, ⟨_, c', h1, h2, h3⟩, _⟩
              cases hu _ h0
              cases hcu c' h1 h2
              exact no2 (by simp) hy _ h3
            | some true, hy =>
              simp only
              have he2 := (withTimeout_some hc2).mp hy
              have hle2 : t2 ≤ t1 + T := by
                obtain ⟨_, d, _, h1, h2⟩ := he2
                rw [hT] at h1
                omega
              rw [dialSession_connected (by rw [hT]; omega)]
              constructor
              · rintro ⟨w, bytes, ack, h1, h2, h3, h4, h5, h6, h7⟩
                exact ⟨t1, t2, w, bytes, ack, he, ⟨hn, c, hck, hro, he2⟩, h1, h2, h3, h4, h5, h6, h7⟩
              · rintro ⟨t1', t2', w, bytes, ack, h0, ⟨_, c', g1, g2, g3⟩, h1, h2, h3, h4, h5, h6, h7⟩
                cases hu _ h0
                cases hcu c' g1 g2
                have : t2' = t2 := by
                  have := (withTimeout_some hc2).mpr g3
                  rw [hy] at this; cases this; rfl
                subst this
                exact ⟨w, bytes, ack, h1, h2, h3, h4, h5, h6, h7⟩

/-- A network that answers at once and accepts the client. -/
def exNetwork : Network where
  tcp := fun a => if a = str "localhost:1883" then ⟨some 3, true⟩ else ⟨none, false⟩
  handshake := fun _ => ⟨some 20, true⟩
  write := ⟨some 1, true⟩
  read := ⟨some 5, .packet (.connAck { sessionPresent := false, reasonCode := .success, properties := none })⟩

example : (dial (exMachine {}).lib (exMachine {}).pem exNetwork (buildOptions (str "localhost") 1883 exSettingCalls) 100) =
    { address := str "localhost:1883"
      handed := some (.encrypted, some .system, [16, 15, 0, 4, 77, 81, 84, 84, 5, 2, 0, 20, 0, 0, 2, 109, 101])
      result := .connected (str "me") 20, ended := 129 } := by decide +kernel

example : InClock exNetwork (buildOptions (str "localhost") 1883 exSettingCalls) 100 := by
  unfold InClock; decide +kernel

/-- What `connect` has handed to the network, and where it was then. -/
theorem dial_handed {lib : Rustls} {files : PemFiles} {net : Network} {o : ClientOptions} {now : Nat}
    {kind : StreamKind} {conn : Option Connector} {bytes : Buf}
    (h : (dial lib files net o now).handed = some (kind, conn, bytes)) :
    (Packet.connect (buildConnect o.toConnectOptions)).encode = .ok bytes ∧
    (net.tcp (dialAddress o.host o.port)).result = true ∧
    ((o.tls.enabled = false ∧ kind = .plain ∧ conn = none) ∨
     (o.tls.enabled = true ∧ kind = .encrypted ∧ ∃ c, conn = some c ∧
       buildConnector lib files o.tls o.host = some c ∧ (net.handshake c).result = true)) := by
  have hses : ∀ {addr : Str} {k : StreamKind} {cn : Option Connector} {t : Nat},
      (dialSession net o addr k cn t).handed = some (kind, conn, bytes) →
      (Packet.connect (buildConnect o.toConnectOptions)).encode = .ok bytes ∧ k = kind ∧ cn = conn := by
    intro addr k cn t h
    unfold dialSession at h
    cases he : (Packet.connect (buildConnect o.toConnectOptions)).encode with
    | panic => rw [he] at h; cases h
    | err e => rw [he] at h; cases h
    | ok b =>
      rw [he] at h
      cases hw : net.write.takes with
      | none => rw [hw] at h; cases h; exact ⟨rfl, rfl, rfl⟩
      | some w =>
        rw [hw] at h
        simp only at h
        split at h <;> (cases h; exact ⟨rfl, rfl, rfl⟩)
  have hto : ∀ {op : NetOp Bool} {n t : Nat}, withTimeout n o.connectTimeoutSecs op = (t, some true) →
      op.result = true := by
    intro op n t h
    unfold withTimeout at h
    cases ht : op.takes with
    | none => rw [ht] at h; cases h
    | some d =>
      rw [ht] at h
      simp only at h
      split at h
      · simp only [Prod.mk.injEq, Option.some.injEq] at h
        exact h.2
      · cases h
  unfold dial at h
  simp only at h
  cases hx : withTimeout now o.connectTimeoutSecs (net.tcp (dialAddress o.host o.port)) with
  | mk t b =>
    rw [hx] at h
    match b, hx with
    | none, _ => cases h
    | some false, _ => cases h
    | some true, hx =>
      simp only at h
      have htcp := hto hx
      cases hen : o.tls.enabled with
      | false =>
        rw [hen] at h
        obtain ⟨h1, rfl, rfl⟩ := hses h
        exact ⟨h1, htcp, Or.inl ⟨rfl, rfl, rfl⟩⟩
      | true =>
        rw [hen] at h
        simp only [if_true] at h
        cases hb : buildConnector lib files o.tls o.host with
        | none => rw [hb] at h; cases h
        | some c =>
          rw [hb] at h
          simp only at h
          cases hy : withTimeout t o.connectTimeoutSecs (net.handshake c) with
          | mk t' b' =>
            rw [hy] at h
            match b', hy with
            | none, _ => cases h
            | some false, _ => cases h
            | some true, hy =>
              simp only at h
              obtain ⟨h1, rfl, rfl⟩ := hses h
              exact ⟨h1, htcp, Or.inr ⟨rfl, rfl, c, rfl, rfl, hto hy⟩⟩

/-- C97: nothing but the CONNECT of the options is handed to the network, only once the server has been
reached; with TLS on it is handed to the encrypted stream only, after a handshake that checked the
server's certificate as the options ask. -/
theorem C97_handed (lib : Rustls) (files : PemFiles) (net : Network) (o : ClientOptions) (now : Nat)
    (kind : StreamKind) (conn : Option Connector) (bytes : Buf)
    (h : (dial lib files net o now).handed = some (kind, conn, bytes)) :
    (Packet.connect (buildConnect o.toConnectOptions)).encode = .ok bytes ∧
    (net.tcp (o.host ++ str ":" ++ str (toString o.port.toNat))).result = true ∧
    (kind = .encrypted ↔ o.tls.enabled = true) ∧
    (o.tls.enabled = true → ∃ c, conn = some c ∧ ChecksAs files o.tls c ∧ (net.handshake c).result = true) := by
  obtain ⟨h1, h2, h3 | h3⟩ := dial_handed h
  · obtain ⟨e, rfl, rfl⟩ := h3
    exact ⟨h1, h2, by simp [e], fun h => by rw [e] at h; cases h⟩
  · obtain ⟨e, rfl, c, rfl, hb, hh⟩ := h3
    exact ⟨h1, h2, by simp [e], fun _ => ⟨c, rfl, ((buildConnector_iff _ _ _ _ _).mp hb).2.1, hh⟩⟩

/-- C97: a server that cannot be reached within the timeout makes `connect` fail, just then, with nothing
sent; one that refuses makes it fail at once. -/
theorem C97_unreachable (lib : Rustls) (files : PemFiles) (net : Network) (o : ClientOptions) (now : Nat)
    (hc : InClock net o now) :
    ((∀ d, (net.tcp (o.host ++ str ":" ++ str (toString o.port.toNat))).takes = some d →
        1000 * o.connectTimeoutSecs.toNat < d) →
      dial lib files net o now =
        ⟨o.host ++ str ":" ++ str (toString o.port.toNat), none, .failed .timeout,
          now + 1000 * o.connectTimeoutSecs.toNat⟩) ∧
    (∀ t, EndsBy (net.tcp (o.host ++ str ":" ++ str (toString o.port.toNat))) now
        (1000 * o.connectTimeoutSecs.toNat) t false →
      dial lib files net o now =
        ⟨o.host ++ str ":" ++ str (toString o.port.toNat), none, .failed .connectionFailed, t⟩) := by
  have hc1 : (now + 1000 * o.connectTimeoutSecs.toNat) / 1000 < 2 ^ 63 := by
    unfold InClock at hc
    omega
  have hs : sleepUntil now (1000 * o.connectTimeoutSecs.toNat) = now + 1000 * o.connectTimeoutSecs.toNat := by
    unfold sleepUntil instantAdd instantMaxSecs
    rw [if_pos (by omega)]
  refine ⟨fun h => ?_, fun t h => ?_⟩
  · unfold dial
    simp only [dialAddress]
    have : withTimeout now o.connectTimeoutSecs (net.tcp (o.host ++ str ":" ++ str (toString o.port.toNat))) =
        (now + 1000 * o.connectTimeoutSecs.toNat, none) := by
      unfold withTimeout
      rw [hs]
      cases ht : (net.tcp (o.host ++ str ":" ++ str (toString o.port.toNat))).takes with
      | none => rfl
      | some d =>
        have := h d ht
        simp only
        rw [if_neg (by omega)]
    rw [this]
  · unfold dial
    simp only [dialAddress]
    rw [(withTimeout_some hc1).mpr h]

/-- Part of C97: if the CONNECT can be written in `w` milliseconds, `connect` returns, after at most
twice the timeout and `w`, three times with TLS. -/
theorem C97_time_partial (lib : Rustls) (files : PemFiles) (net : Network) (o : ClientOptions) (now w : Nat)
    (hc : InClock net o now) (hw : net.write.takes = some w) :
    (dial lib files net o now).result ≠ .waiting ∧
    (dial lib files net o now).ended ≤
      now + (if o.tls.enabled then 3 else 2) * (1000 * o.connectTimeoutSecs.toNat) + w := by
  have hc' := hc
  unfold InClock at hc'
  rw [hw] at hc'
  simp only [Option.getD_some] at hc'
  have hle : ∀ {α : Type} (n : Nat) (op : NetOp α), n ≤ now + 2 * (1000 * o.connectTimeoutSecs.toNat) + w →
      (withTimeout n o.connectTimeoutSecs op).1 ≤ n + 1000 * o.connectTimeoutSecs.toNat := fun n op hn =>
    withTimeout_le op (by omega)
  have hses : ∀ (addr : Str) (k : StreamKind) (cn : Option Connector) (n : Nat),
      n ≤ now + 2 * (1000 * o.connectTimeoutSecs.toNat) →
      (dialSession net o addr k cn n).result ≠ .waiting ∧
      (dialSession net o addr k cn n).ended ≤ n + 1000 * o.connectTimeoutSecs.toNat + w := by
    intro addr k cn n hn
    unfold dialSession
    cases (Packet.connect (buildConnect o.toConnectOptions)).encode with
    | panic => exact ⟨by simp, by simp only; omega⟩
    | err e => exact ⟨by simp, by simp only; omega⟩
    | ok b =>
      rw [hw]
      simp only
      split
      · refine ⟨?_, ?_⟩
        · simp only
          split <;> simp
        · have := hle (n + w) net.read (by omega)
          simp only
          omega
      · exact ⟨by simp, by simp only; omega⟩
  unfold dial
  simp only
  have h1 := hle now (net.tcp (dialAddress o.host o.port)) (by omega)
  cases hx : withTimeout now o.connectTimeoutSecs (net.tcp (dialAddress o.host o.port)) with
  | mk t b =>
    rw [hx] at h1
    simp only at h1
    have hmul : 2 * (1000 * o.connectTimeoutSecs.toNat) ≤
        (if o.tls.enabled then 3 else 2) * (1000 * o.connectTimeoutSecs.toNat) := by
      split
      · omega
      · exact Nat.le_refl _
    match b with
    | none => exact ⟨by simp, by simp only; omega⟩
    | some false => exact ⟨by simp, by simp only; omega⟩
    | some true =>
      cases hen : o.tls.enabled with
      | false =>
        have := hses (dialAddress o.host o.port) .plain none t (by omega)
        exact ⟨this.1, by simp only [Bool.false_eq_true, if_false]; omega⟩
      | true =>
        simp only [if_true]
        cases hb : buildConnector lib files o.tls o.host with
        | none => exact ⟨by simp, by simp only; omega⟩
        | some c =>
          simp only
          have h2 := hle t (net.handshake c) (by omega)
          cases hy : withTimeout t o.connectTimeoutSecs (net.handshake c) with
          | mk t' b' =>
            rw [hy] at h2
            simp only at h2
            match b' with
            | none => exact ⟨by simp, by simp only; omega⟩
            | some false => exact ⟨by simp, by simp only; omega⟩
            | some true =>
              have := hses (dialAddress o.host o.port) .encrypted (some c) t' (by omega)
              exact ⟨this.1, by simp only; omega⟩

theorem withTimeout_after {α : Type} (now : Nat) (secs : UInt64) (op : NetOp α) : now ≤ (withTimeout now secs op).1 := by
  have h : now ≤ sleepUntil now (1000 * secs.toNat) := by
    unfold sleepUntil instantAdd farFuture
    split
    · rename_i t ht
      split at ht <;> simp at ht
      omega
    · omega
  unfold withTimeout
  cases op.takes with
  | none => exact h
  | some t =>
    simp only
    split
    · exact Nat.le_add_right _ _
    · exact h

/-- C97: if the server was reached, but the CONNECT cannot be written, `connect` fails with an I/O error, as soon as
writing fails: not before, and no more than the timeout (twice, with TLS) after `w`, the time writing took. -/
theorem C97_write_fails (lib : Rustls) (files : PemFiles) (net : Network) (o : ClientOptions) (now w : Nat)
    (hc : InClock net o now) (hw : net.write = ⟨some w, false⟩) (h : (dial lib files net o now).handed ≠ none) :
    (dial lib files net o now).result = .failed .io ∧ now + w ≤ (dial lib files net o now).ended ∧
    (dial lib files net o now).ended ≤
      now + (if o.tls.enabled then 2 else 1) * (1000 * o.connectTimeoutSecs.toNat) + w := by
  unfold InClock at hc
  rw [hw] at hc
  simp only [Option.getD_some] at hc
  have hle : ∀ {α : Type} (n : Nat) (op : NetOp α), n ≤ now + 2 * (1000 * o.connectTimeoutSecs.toNat) + w →
      (withTimeout n o.connectTimeoutSecs op).1 ≤ n + 1000 * o.connectTimeoutSecs.toNat := fun n op hn =>
    withTimeout_le op (by omega)
  have hses : ∀ (addr : Str) (k : StreamKind) (cn : Option Connector) (n : Nat),
      (dialSession net o addr k cn n).handed ≠ none →
      (dialSession net o addr k cn n).result = .failed .io ∧ (dialSession net o addr k cn n).ended = n + w := by
    intro addr k cn n
    unfold dialSession
    cases (Packet.connect (buildConnect o.toConnectOptions)).encode with
    | panic => intro h; exact absurd rfl h
    | err e => intro h; exact absurd rfl h
    | ok b => intro _; rw [hw]; exact ⟨rfl, rfl⟩
  unfold dial at h ⊢
  simp only at h ⊢
  have h1 := hle now (net.tcp (dialAddress o.host o.port)) (by omega)
  have g1 := withTimeout_after now o.connectTimeoutSecs (net.tcp (dialAddress o.host o.port))
  cases hx : withTimeout now o.connectTimeoutSecs (net.tcp (dialAddress o.host o.port)) with
  | mk t b =>
    rw [hx] at h1 g1 h
    simp only at h1 g1
    match b, h with
    | none, h => exact absurd rfl h
    | some false, h => exact absurd rfl h
    | some true, h =>
      cases hen : o.tls.enabled with
      | false =>
        simp only [hen, Bool.false_eq_true, if_false] at h ⊢
        obtain ⟨a, b⟩ := hses _ _ _ _ h
        exact ⟨a, by omega, by omega⟩
      | true =>
        simp only [hen, if_true] at h ⊢
        cases hb : buildConnector lib files o.tls o.host with
        | none => rw [hb] at h; exact absurd rfl h
        | some c =>
          simp only [hb] at h ⊢
          have h2 := hle t (net.handshake c) (by omega)
          have g2 := withTimeout_after t o.connectTimeoutSecs (net.handshake c)
          cases hy : withTimeout t o.connectTimeoutSecs (net.handshake c) with
          | mk t' b' =>
            rw [hy] at h2 g2 h
            simp only at h2 g2
            match b', h with
            | none, h => exact absurd rfl h
            | some false, h => exact absurd rfl h
            | some true, h =>
              obtain ⟨a, b⟩ := hses _ _ _ _ h
              exact ⟨a, by simp only; omega, by simp only; omega⟩

/-- Nothing came in time. -/
theorem withTimeout_none {α : Type} {now : Nat} {secs : UInt64} {op : NetOp α}
    (hc : (now + 1000 * secs.toNat) / 1000 < 2 ^ 63) (h : ∀ d, op.takes = some d → 1000 * secs.toNat < d) :
    withTimeout now secs op = (now + 1000 * secs.toNat, none) := by
  have hs : sleepUntil now (1000 * secs.toNat) = now + 1000 * secs.toNat := by
    unfold sleepUntil instantAdd instantMaxSecs
    rw [if_pos (by omega)]
  unfold withTimeout
  rw [hs]
  cases ht : op.takes with
  | none => rfl
  | some d =>
    have := h d ht
    simp only
    rw [if_neg (by omega)]

/-- C97: how `connect` fails with TLS on once the server has been reached (at time `t`), always with nothing sent: at
once, with a TLS error, if the host name, the certificates of the application's file or their number do not allow a
connection; with a timeout if the handshake does not end in time, just then; with a TLS error as soon as the handshake
fails. -/
theorem C97_tls_fails (lib : Rustls) (files : PemFiles) (net : Network) (o : ClientOptions) (now t : Nat)
    (hc : InClock net o now) (htls : o.tls.enabled = true)
    (ht : EndsBy (net.tcp (o.host ++ str ":" ++ str (toString o.port.toNat))) now
      (1000 * o.connectTimeoutSecs.toNat) t true) :
    ((¬ ∃ c, lib.name o.host = true ∧ ChecksAs files o.tls c ∧
        ∀ roots, c = .checked roots → ∀ r ∈ roots, lib.root r = true) →
      dial lib files net o now =
        ⟨o.host ++ str ":" ++ str (toString o.port.toNat), none, .failed .tls, t⟩) ∧
    ∀ c, lib.name o.host = true → ChecksAs files o.tls c →
      (∀ roots, c = .checked roots → ∀ r ∈ roots, lib.root r = true) →
      ((∀ d, (net.handshake c).takes = some d → 1000 * o.connectTimeoutSecs.toNat < d) →
        dial lib files net o now =
          ⟨o.host ++ str ":" ++ str (toString o.port.toNat), none, .failed .timeout,
            t + 1000 * o.connectTimeoutSecs.toNat⟩) ∧
      ∀ t', EndsBy (net.handshake c) t (1000 * o.connectTimeoutSecs.toNat) t' false →
        dial lib files net o now =
          ⟨o.host ++ str ":" ++ str (toString o.port.toNat), none, .failed .tls, t'⟩ := by
  unfold InClock at hc
  have hc1 : (now + 1000 * o.connectTimeoutSecs.toNat) / 1000 < 2 ^ 63 := by omega
  have hle : t ≤ now + 1000 * o.connectTimeoutSecs.toNat := by
    obtain ⟨_, d, _, h1, h2⟩ := ht
    omega
  have hc2 : (t + 1000 * o.connectTimeoutSecs.toNat) / 1000 < 2 ^ 63 := by omega
  have e := (withTimeout_some hc1).mpr ht
  constructor
  · intro hno
    have hb : buildConnector lib files o.tls o.host = none := by
      cases hb : buildConnector lib files o.tls o.host with
      | none => rfl
      | some c => exact absurd ⟨c, (buildConnector_iff _ _ _ _ _).mp hb⟩ hno
    unfold dial
    simp only [dialAddress, e, htls, if_true, hb]
  · intro c h1 h2 h3
    have hb := (buildConnector_iff _ _ _ _ _).mpr ⟨h1, h2, h3⟩
    constructor
    · intro h
      unfold dial
      simp only [dialAddress, e, htls, if_true, hb, withTimeout_none hc2 h]
    · intro t' h
      unfold dial
      simp only [dialAddress, e, htls, if_true, hb, (withTimeout_some hc2).mpr h]

/-- C97: a server that is reached (at `t`, without TLS) and takes the CONNECT (in `w` milliseconds), but does not
answer in time, makes `connect` fail with a timeout, just then. -/
theorem C97_no_answer (lib : Rustls) (files : PemFiles) (net : Network) (o : ClientOptions) (now t w : Nat)
    (hc : InClock net o now) (ho : o.toConnectOptions.Admissible) (hp : o.tls.enabled = false)
    (ht : EndsBy (net.tcp (o.host ++ str ":" ++ str (toString o.port.toNat))) now
      (1000 * o.connectTimeoutSecs.toNat) t true) (hw : net.write = ⟨some w, true⟩)
    (hr : ∀ d, net.read.takes = some d → 1000 * o.connectTimeoutSecs.toNat < d) :
    (dial lib files net o now).result = .failed .timeout ∧
    (dial lib files net o now).ended = t + w + 1000 * o.connectTimeoutSecs.toNat := by
  obtain ⟨bytes, p, hb, _⟩ := C56_connect .release _ ho
  unfold InClock at hc
  rw [hw] at hc
  simp only [Option.getD_some] at hc
  have hc1 : (now + 1000 * o.connectTimeoutSecs.toNat) / 1000 < 2 ^ 63 := by omega
  have hle : t ≤ now + 1000 * o.connectTimeoutSecs.toNat := by
    obtain ⟨_, d, _, h1, h2⟩ := ht
    omega
  have hc2 : (t + w + 1000 * o.connectTimeoutSecs.toNat) / 1000 < 2 ^ 63 := by omega
  have e := (withTimeout_some hc1).mpr ht
  unfold dial
  simp only [dialAddress, e, hp, Bool.false_eq_true, if_false]
  unfold dialSession
  rw [hb, hw]
  simp only [if_true, withTimeout_none hc2 hr, and_true]
  rfl

/-- C97 is false for the time: the timeout is granted to each step anew.  Whatever the options are, a
slow enough server is connected to after twice the timeout, with TLS after three times. -/
theorem C97_each_step_anew_false (lib : Rustls) (files : PemFiles) (o : ClientOptions) (now : Nat)
    (ho : o.toConnectOptions.Admissible)
    (ht : o.tls.enabled = true → lib.name o.host = true ∧ ∃ c, ChecksAs files o.tls c ∧
      ∀ roots, c = .checked roots → ∀ r ∈ roots, lib.root r = true)
    (hc : (now + 3 * (1000 * o.connectTimeoutSecs.toNat)) / 1000 < 2 ^ 63) :
    ∃ net id, net.write.takes = some 0 ∧
      (dial lib files net o now).result = .connected id o.keepAlive ∧
      (dial lib files net o now).ended =
        now + (if o.tls.enabled then 3 else 2) * (1000 * o.connectTimeoutSecs.toNat) := by
  let T := 1000 * o.connectTimeoutSecs.toNat
  let net : Network :=
    { tcp := fun _ => ⟨some T, true⟩, handshake := fun _ => ⟨some T, true⟩, write := ⟨some 0, true⟩
      read := ⟨some T, .packet (.connAck { sessionPresent := false, reasonCode := .success, properties := none })⟩ }
  obtain ⟨bytes, p, hb, _⟩ := C56_connect .release _ ho
  refine ⟨net, o.clientId.getD [], rfl, (C97_connected lib files net o now ?_ _ _ _).mpr ?_⟩
  · exact hc
  · refine ⟨now + T, if o.tls.enabled then now + T + T else now + T, 0, bytes, _,
      ⟨rfl, T, rfl, Nat.le_refl _, rfl⟩, ?_, ?_, hb, rfl, rfl, ⟨rfl, T, rfl, Nat.le_refl _, ?_⟩, rfl, rfl, rfl⟩
    · intro h
      obtain ⟨h1, c, h2, h3⟩ := ht h
      exact ⟨h1, c, h2, h3, rfl, T, rfl, Nat.le_refl _, by rw [if_pos h]⟩
    · intro h
      rw [h]; rfl
    · cases o.tls.enabled <;> simp only [if_true, if_false, Bool.false_eq_true] <;> omega

/-- C97 is false for the time in another way: writing the CONNECT has no timeout.  If the server is
reached and then takes no bytes, `connect` never returns, whatever the timeout is. -/
theorem C97_never_returns_false (lib : Rustls) (files : PemFiles) (net : Network) (o : ClientOptions)
    (now t : Nat) (hc : InClock net o now) (ho : o.toConnectOptions.Admissible) (hp : o.tls.enabled = false)
    (ht : EndsBy (net.tcp (o.host ++ str ":" ++ str (toString o.port.toNat))) now
      (1000 * o.connectTimeoutSecs.toNat) t true) (hw : net.write.takes = none) :
    (dial lib files net o now).result = .waiting := by
  obtain ⟨bytes, p, hb, _⟩ := C56_connect .release _ ho
  have hc1 : (now + 1000 * o.connectTimeoutSecs.toNat) / 1000 < 2 ^ 63 := by
    unfold InClock at hc
    omega
  unfold dial
  simp only [dialAddress]
  rw [(withTimeout_some hc1).mpr ht]
  simp only [hp, Bool.false_eq_true, if_false]
  unfold dialSession
  rw [hb, hw]

example : (dial (exMachine {}).lib (exMachine {}).pem { exNetwork with write := ⟨none, true⟩ }
    (buildOptions (str "localhost") 1883 [.connectTimeout 1]) 100).result = .waiting := by decide +kernel

example :
    let d := dial (exMachine {}).lib (exMachine {}).pem { exNetwork with write := ⟨some 7, false⟩ }
      (buildOptions (str "localhost") 1883 [.connectTimeout 1]) 100
    d.handed ≠ none ∧ d.result = .failed .io := by decide +kernel

/-- A handshake that takes too long. -/
example :
    let net : Network := { exNetwork with handshake := fun _ => ⟨some 2000, true⟩ }
    let d := dial (exMachine {}).lib (exMachine {}).pem net
      (buildOptions (str "localhost") 1883 [.tls true, .connectTimeout 1]) 100
    d.handed = none ∧ d.result = .failed .timeout ∧
      InClock net (buildOptions (str "localhost") 1883 [.tls true, .connectTimeout 1]) 100 := by
  unfold InClock; decide +kernel

/-- A server that does not answer. -/
example :
    let net : Network := { exNetwork with read := ⟨none, .closed⟩ }
    let d := dial (exMachine {}).lib (exMachine {}).pem net
      (buildOptions (str "localhost") 1883 [.connectTimeout 1]) 100
    d.handed ≠ none ∧ d.result = .failed .timeout ∧
      InClock net (buildOptions (str "localhost") 1883 [.connectTimeout 1]) 100 := by
  unfold InClock; decide +kernel

/-! ## C71: the command line tool and TLS -/

theorem used_tls {a : CliConnection} {o : ClientOptions} (h : UsedBy a o) :
    o.tls = ⟨a.tls, a.cafile, a.insecure⟩ ∧ o.host = a.host ∧ o.port = a.port ∧ o.connectTimeoutSecs = 30 := by
  cases h with
  | pub a => rw [cli_connectOptions]; exact ⟨rfl, rfl, rfl, rfl⟩
  | sub a o h =>
    unfold SubArgs.connectOptions at h
    cases hq : cliQos a.qos with
    | none => rw [hq] at h; cases h
    | some q =>
      rw [hq] at h
      cases ht : a.willTopic with
      | none => rw [ht] at h; cases h; rw [cli_connectOptions]; exact ⟨rfl, rfl, rfl, rfl⟩
      | some t =>
        rw [ht] at h
        cases hw : cliQos a.willQos with
        | none => rw [hw] at h; cases h
        | some wq => rw [hw] at h; cases h; rw [cli_connectOptions]; exact ⟨rfl, rfl, rfl, rfl⟩

/-- Part of C71: called with `--tls`, the tool hands nothing to a plain stream; unless `--insecure` is
given, it hands its CONNECT over only after a handshake that checks the server's certificate, against the
certificates of the `--cafile`, if there is one, and otherwise against the built-in roots. -/
theorem C71_tls_partial (lib : Rustls) (files : PemFiles) (net : Network) (args : CliConnection)
    (o : ClientOptions) (ho : UsedBy args o) (now : Nat) (k : StreamKind) (conn : Option Connector)
    (bytes : Buf) (ht : args.tls = true) (h : (dial lib files net o now).handed = some (k, conn, bytes)) :
    k = .encrypted ∧ ∃ c, conn = some c ∧ (net.handshake c).result = true ∧ (args.insecure = false →
      match args.cafile with
      | some ca => ∃ items roots, files ca = some items ∧ CertsIn items roots ∧ c = .checked roots
      | none => c = .system) := by
  obtain ⟨e, _⟩ := used_tls ho
  obtain ⟨_, _, h1, h2⟩ := C97_handed lib files net o now k conn bytes h
  have hen : o.tls.enabled = true := by rw [e]; exact ht
  obtain ⟨c, hc, hck, hh⟩ := h2 hen
  refine ⟨h1.mpr hen, c, hc, hh, fun hi => ?_⟩
  rw [e] at hck
  cases c with
  | unchecked => simp only [ChecksAs] at hck; rw [hi] at hck; cases hck
  | system =>
    simp only [ChecksAs] at hck
    rw [hck.2]
  | checked roots =>
    simp only [ChecksAs] at hck
    obtain ⟨_, ca, items, h1, h2, h3⟩ := hck
    rw [h1]
    exact ⟨items, roots, h2, h3, rfl⟩

/-- C71 is false without `--tls`: a CA file alone does not turn encryption on, so CONNECT, with user name
and password, is handed to a plain stream as soon as the server is reached. -/
theorem C71_cafile_alone_false (lib : Rustls) (files : PemFiles) (net : Network) (args : CliConnection)
    (o : ClientOptions) (ho : UsedBy args o) (hadm : o.toConnectOptions.Admissible) (now t : Nat)
    (hc : InClock net o now) (ht : args.tls = false)
    (hr : EndsBy (net.tcp (args.host ++ str ":" ++ str (toString args.port.toNat))) now 30000 t true) :
    ∃ bytes, (Packet.connect (buildConnect o.toConnectOptions)).encode = .ok bytes ∧
      (dial lib files net o now).handed = some (.plain, none, bytes) := by
  obtain ⟨e1, e2, e3, e4⟩ := used_tls ho
  obtain ⟨bytes, p, hb, _⟩ := C56_connect .release _ hadm
  refine ⟨bytes, hb, ?_⟩
  have hc1 : (now + 1000 * o.connectTimeoutSecs.toNat) / 1000 < 2 ^ 63 := by
    unfold InClock at hc
    omega
  rw [← e2, ← e3] at hr
  have hr' : EndsBy (net.tcp (o.host ++ str ":" ++ str (toString o.port.toNat))) now
      (1000 * o.connectTimeoutSecs.toNat) t true := by rw [e4]; exact hr
  unfold dial
  simp only [dialAddress]
  rw [(withTimeout_some hc1).mpr hr']
  have hen : o.tls.enabled = false := by rw [e1]; exact ht
  simp only [hen, Bool.false_eq_true, if_false]
  unfold dialSession
  rw [hb]
  cases hw : net.write.takes with
  | none => rfl
  | some w =>
    simp only
    split <;> rfl

/-- Arguments with a CA file, with and without `--tls`. -/
def exTool (tls : Bool) : CliConnection := { cafile := some (str "cert"), tls := tls }

example : (dial (exMachine {}).lib (exMachine {}).pem exNetwork (exTool false).connectOptions 0).handed =
    some (.plain, none, [16, 13, 0, 4, 77, 81, 84, 84, 5, 2, 0, 60, 0, 0, 0]) := by decide +kernel

example : (dial (exMachine {}).lib (exMachine {}).pem exNetwork (exTool true).connectOptions 0).handed =
    some (.encrypted, some (.checked [[1], [2]]), [16, 13, 0, 4, 77, 81, 84, 84, 5, 2, 0, 60, 0, 0, 0]) := by
  decide +kernel

example : UsedBy (exTool true) (exTool true).connectOptions := .pub { connection := exTool true, topic := [] }

/-! ## C80: where the tool connects to -/

/-- C80: the tool dials exactly the host and port of its arguments and waits 30 seconds for each answer. -/
theorem C80_address (lib : Rustls) (files : PemFiles) (net : Network) (args : CliConnection)
    (o : ClientOptions) (ho : UsedBy args o) (now : Nat) :
    (dial lib files net o now).address = args.host ++ str ":" ++ str (toString args.port.toNat) ∧
    o.connectTimeoutSecs = 30 := by
  obtain ⟨_, e2, e3, e4⟩ := used_tls ho
  refine ⟨?_, e4⟩
  have hses : ∀ (addr : Str) (k : StreamKind) (cn : Option Connector) (n : Nat),
      (dialSession net o addr k cn n).address = addr := by
    intro addr k cn n
    unfold dialSession
    cases (Packet.connect (buildConnect o.toConnectOptions)).encode with
    | ok b =>
      cases net.write.takes with
      | none => rfl
      | some w => simp only; split <;> rfl
    | _ => rfl
  rw [← e2, ← e3]
  unfold dial
  simp only
  split
  · rfl
  · rfl
  · split
    · split
      · rfl
      · split
        · rfl
        · rfl
        · exact hses _ _ _ _
    · exact hses _ _ _ _

example : (dial (exMachine {}).lib (exMachine {}).pem exNetwork (exTool true).connectOptions 0).address =
    str "localhost:1883" := by decide +kernel

end Mercurio
