import Verif.Props.Packets

/-!
# C17 - C20: reading packets from a byte stream, hostile bytes
-/

namespace Mercurio

open Spec

/-! ## C17 -/

/-- C17: any sequence of packets (pings, AUTH and DISCONNECT with properties excluded by `Sent`), the
bytes split into chunks in any way and followed by an unfinished piece of another packet, is read as
exactly these packets in order; the end of the stream is then reported as a clean close exactly if no
unfinished piece is pending. -/
theorem C17_chunked_stream (m : Mode) (ps : List Packet) (bs tail : Buf) (cs : List Buf)
    (hs : Sent ps bs) (ht : Unfinished tail) (hc : Chunks cs) (hb : cs.flatten = bs ++ tail)
    (n : Nat) (hn : ps.length < n) :
    readStream m n [] cs =
      (ps.map Packet.received,
        some (if tail = [] then .closed else .error (.mqtt .normalDisconnection))) :=
  readStream_sent m hs tail [] cs ht hc (by simp) (by simpa using hb) n hn

theorem Survives.pubAck7 : (Packet.pubAck { packetId := 7 }).Survives := by
  intro q h; cases h

/-- Two PUBACKs and the first byte of a third packet, in chunks that ignore the packet boundaries. -/
example : Sent [.pubAck { packetId := 7 }, .pubAck { packetId := 7 }] [0x40, 2, 0, 7, 0x40, 2, 0, 7] ∧
    Unfinished [0x40] ∧ Chunks [[0x40, 2, 0], [7, 0x40, 2, 0, 7, 0x40]] := by
  have he : (Packet.pubAck { packetId := 7 }).encode = .ok [0x40, 2, 0, 7] := by decide
  have hf : FitsMqtt [0x40, 2, 0, 7] := by unfold FitsMqtt; decide
  refine ⟨?_, ⟨.pubAck { packetId := 7 }, _, 1, he, hf, by decide, rfl⟩, ?_⟩
  · exact Sent.cons Survives.pubAck7 he hf (Sent.cons Survives.pubAck7 he hf Sent.nil)
  · intro c hc
    simp only [List.mem_cons, List.not_mem_nil, or_false] at hc
    rcases hc with rfl | rfl <;> exact ⟨by simp, by decide⟩

/-! ## C18 -/

theorem readPacket_zero (m : Mode) (p : Packet) : ∀ (cs : List Buf) (b : Buf),
    (readPacket m (0 :: b) cs).1 ≠ .packet p := by
  intro cs
  induction cs with
  | nil =>
    intro b h
    unfold readPacket at h
    split at h
    · rename_i hp; exact parsePacket_zero m _ _ _ hp
    · cases h
    · cases h
    · simp only at h; split at h <;> cases h
  | cons c cs ih =>
    intro b h
    unfold readPacket at h
    split at h
    · rename_i hp; exact parsePacket_zero m _ _ _ hp
    · cases h
    · cases h
    · split at h
      · simp only at h; split at h <;> cases h
      · exact ih (b ++ c) h

theorem readStream_zero (m : Mode) (n : Nat) (cs : List Buf) (b : Buf) :
    (readStream m n (0 :: b) cs).1 = [] := by
  cases n with
  | zero => rfl
  | succ n =>
    unfold readStream
    rcases hR : readPacket m (0 :: b) cs with ⟨o, b', c'⟩
    cases o with
    | packet p => exact absurd (by rw [hR]) (readPacket_zero m p cs b)
    | closed => rfl
    | error e => rfl
    | panicked => rfl

theorem readPacket_ping (m : Mode) (tail : Buf) : ∀ (cs : List Buf) (buf : Buf), Chunks cs →
    buf ++ cs.flatten = 0xc0 :: 0 :: tail →
    ∃ b cs', readPacket m buf cs = (.packet .pingReq, 0 :: b, cs') ∧ b ++ cs'.flatten = tail := by
  have inc : ∀ buf : Buf, buf.length < 2 → parsePacket m buf = .needMore := by
    intro buf h
    have : check m buf = .err .incomplete := by unfold check; rw [if_pos h]
    simp only [parsePacket, this]
  intro cs
  induction cs with
  | nil =>
    intro buf _ h
    simp only [List.flatten_nil, List.append_nil] at h
    subst h
    refine ⟨tail, [], ?_, by simp⟩
    unfold readPacket
    simp only [parsePacket_ping]
  | cons c cs ih =>
    intro buf hcs h
    rcases Nat.lt_or_ge buf.length 2 with hl | hl
    · obtain ⟨b, cs', h1, h2⟩ := ih (buf ++ c) (fun d hd => hcs d (by simp [hd]))
        (by rw [List.append_assoc]; exact h)
      refine ⟨b, cs', ?_, h2⟩
      conv => lhs; unfold readPacket
      simp only [inc buf hl, (hcs c (by simp)).1, if_false]
      exact h1
    · rcases buf with _ | ⟨x, _ | ⟨y, buf⟩⟩
      · simp at hl
      · simp at hl
      · simp only [List.cons_append, List.cons.injEq] at h
        obtain ⟨rfl, rfl, h⟩ := h
        refine ⟨buf, c :: cs, ?_, h⟩
        unfold readPacket
        simp only [parsePacket_ping]

/-- C18 is false, always: once a PINGREQ has been read, no further packet is delivered on this
connection, whatever the peer sends and however it arrives. -/
theorem C18_after_ping_false (m : Mode) (ps : List Packet) (bs : Buf) (hs : Sent ps bs) :
    ∀ (tail buf : Buf) (cs : List Buf), Chunks cs → buf.length < 2 ^ 32 →
      buf ++ cs.flatten = bs ++ 0xc0 :: 0 :: tail →
      ∀ n, ps.length < n → (readStream m n buf cs).1 = ps.map Packet.received ++ [.pingReq] := by
  induction hs with
  | nil =>
    intro tail buf cs hc _ hb n hn
    obtain ⟨n, rfl⟩ : ∃ k, n = k + 1 := ⟨n - 1, by simp at hn; omega⟩
    obtain ⟨b, cs', h1, -⟩ := readPacket_ping m tail cs buf hc hb
    unfold readStream
    rw [h1]
    simp only [List.map_nil, List.nil_append]
    rw [readStream_zero]
  | cons hs he hf _ ih =>
    intro tail buf cs hc hl hb n hn
    obtain ⟨n, rfl⟩ : ∃ k, n = k + 1 := ⟨n - 1, by simp at hn; omega⟩
    rw [List.append_assoc] at hb
    obtain ⟨buf', cs', h1, h2, h3, h4⟩ := readPacket_first m hs he hf _ cs buf hc hl hb
    unfold readStream
    rw [h1]
    simp only
    rw [ih tail buf' cs' h2 h3 h4 n (by simp at hn; omega)]
    simp

/-- Ping, then a PUBACK, in one chunk: the PUBACK is lost. -/
example : readStream .release 5 [] [[0xc0, 0, 0x40, 2, 0, 7]] =
    ([.pingReq], some (.error (.mqtt .normalDisconnection))) := by decide

/-- C18: what holds is that the ping itself is delivered, however it is split.
Missing: everything after it (previous theorem). -/
theorem C18_ping_delivered_partial (m : Mode) (tail : Buf) (cs : List Buf) (hc : Chunks cs)
    (hb : cs.flatten = 0xc0 :: 0 :: tail) : (readPacket m [] cs).1 = .packet .pingReq := by
  obtain ⟨b, cs', h1, -⟩ := readPacket_ping m tail cs [] hc (by simpa using hb)
  rw [h1]

/-! ## C19 -/

/-- C19 is false: CONNECT ignores its announced length.  Here it announces 0 bytes, and 13 more are
read. -/
theorem C19_connect_reads_on_false :
    ∃ c, ∀ m, parsePacket m [0x10, 0, 0, 4, 77, 81, 84, 84, 4, 2, 0, 60, 0, 1, 120] =
      .packet (.connect c) [] := by
  refine ⟨{ sampleConnect3 with keepalive := 60 }, fun m => ?_⟩
  cases m <;> decide

/-- C19 is false: a PUBACK of length 3 (legal: id and reason code) followed by another PUBACK eats the
first bytes of that packet; the rest is then misread. -/
theorem C19_puback_length3_false :
    ∃ a, ∀ m, parsePacket m [0x40, 3, 0, 7, 0, 0, 0x40, 2, 0, 8] = .packet (.pubAck a) [0x40, 2, 0, 8] ∧
      parsePacket m [0x40, 3, 0, 7, 0, 0x40, 2, 0, 8] = .error .incomplete := by
  refine ⟨{ packetId := 7, reason := .success, properties := some {} }, fun m => ?_⟩
  cases m <;> decide

/-- C19 is false: a PINGREQ leaves one of its two bytes behind. -/
theorem C19_ping_false (m : Mode) (rest : Buf) :
    parsePacket m (0xc0 :: 0 :: rest) = .packet .pingReq (0 :: rest) := parsePacket_ping m rest

/-- C19: what holds for arbitrary bytes is that an accepted packet takes a non-empty prefix of the
buffer and leaves the other bytes untouched and in order; for everything the encoders produce (the
pings, AUTH and DISCONNECT with properties excepted) the prefix is exactly the packet.
Missing: that the prefix is the announced one for arbitrary bytes, which is false (above). -/
theorem C19_consumes_prefix_partial (m : Mode) :
    (∀ v (b rest : Buf) p, parseWithVersion m v b = .ok (p, rest) →
      ∃ used, used ≠ [] ∧ b = used ++ rest) ∧
    (∀ p : Packet, p.Survives → ∀ bytes rest, p.encode = .ok bytes → FitsMqtt bytes →
      (bytes ++ rest).length < 2 ^ 32 → parsePacket m (bytes ++ rest) = .packet p.received rest) := by
  refine ⟨fun v b rest p h => ?_, fun p hs bytes rest he hf hr => parsePacket_encode m hs he hf hr⟩
  obtain ⟨u, hu, hl⟩ := (parseWithVersion_reads m v).h _ _ _ h
  exact ⟨u, by rintro rfl; simp at hl, hu⟩

/-- The server always makes progress: every packet it reads shortens what is left of the stream. -/
theorem C19_progress (m : Mode) : ∀ (cs : List Buf) (buf : Buf) p buf' cs',
    readPacket m buf cs = (.packet p, buf', cs') →
    (buf' ++ cs'.flatten).length < (buf ++ cs.flatten).length := by
  have key : ∀ buf p rest, parsePacket m buf = .packet p rest → rest.length < buf.length := by
    intro buf p rest h
    unfold parsePacket at h
    split at h
    · cases h
    · cases h
    · cases h
    · split at h
      · rename_i hp
        cases h
        obtain ⟨u, hu, hl⟩ := (parseWithVersion_reads m .v5).h _ _ _ hp
        have := congrArg List.length hu
        simp at this
        omega
      · cases h
      · cases h
  intro cs
  induction cs with
  | nil =>
    intro buf p buf' cs' h
    unfold readPacket at h
    split at h
    · rename_i hp
      cases h
      have := key _ _ _ hp
      simpa using this
    · cases h
    · cases h
    · injection h with h
      split at h <;> cases h
  | cons c cs ih =>
    intro buf p buf' cs' h
    unfold readPacket at h
    split at h
    · rename_i hp
      cases h
      have := key _ _ _ hp
      simp only [List.length_append]
      omega
    · cases h
    · cases h
    · split at h
      · injection h with h
        split at h <;> cases h
      · have := ih (buf ++ c) p buf' cs' h
        simp only [List.flatten_cons, List.length_append] at this ⊢
        omega

/-! ## C20 -/

/-- C20 is false, in both build modes: these byte strings abort the task that reads them. -/
theorem C20_abort_false :
    ∀ m, parsePacket m [0x20, 0] = .panicked                       -- CONNACK without flags
      ∧ parsePacket m [0x82, 6, 0, 1, 0, 0, 1, 97] = .panicked      -- SUBSCRIBE without options byte
      ∧ parsePacket m [0x40, 0, 0, 1] = .panicked                   -- PUBACK announcing nothing
      ∧ parsePacket m [0xe0, 0x81, 0] = .panicked                   -- DISCONNECT without its reason
      ∧ parsePacket m [0xf0, 0] = .panicked := by                   -- AUTH without reason
  intro m; cases m <;> decide

/-- C20 is false in a debug build also because of arithmetic: an over-long length field, and a PUBLISH
that announces less than its topic takes. -/
theorem C20_abort_debug_false :
    parsePacket .debug [0x10, 0xff, 0xff, 0xff, 0xff, 0x7f] = .panicked ∧
    parsePacket .debug [0x30, 0, 0, 1, 97, 0] = .panicked := by decide

/-- C20: in a release build CONNECT, PUBLISH, UNSUBSCRIBE, PINGREQ, PINGRESP and reserved packet types
never abort the reader, whatever the bytes.
Missing: the other packet types and debug builds, for which the claim is false (above). -/
theorem C20_no_abort_partial (b : UInt8) (hb : (b >>> 4).toNat ∈ [0, 1, 3, 10, 12, 13]) (rest : Buf) :
    parsePacket .release (b :: rest) ≠ .panicked := by
  have hp : parse .release (b :: rest) ≠ .panic := by
    have step : ∀ {α : Type} {d : Dec α} (C : α → Packet), d (b :: rest) ≠ .panic →
        (do let p ← d; return C p : Dec Packet) (b :: rest) ≠ .panic := by
      intro α d C hd h
      rw [Dec.bind_apply] at h
      cases hx : d (b :: rest) with
      | err e => rw [hx] at h; cases h
      | panic => exact hd hx
      | ok x => rw [hx] at h; cases h
    simp only [List.mem_cons, List.not_mem_nil, or_false] at hb
    simp only [parse, parseWithVersion]
    rcases hb with h | h | h | h | h | h <;> rw [h]
    · intro h; cases h
    · exact step _ (decodeConnect_noPanic b rest)
    · exact step _ (decodePublish_noPanic b rest)
    · exact step _ (decodeUnsubscribe_noPanic b rest)
    · intro h; cases h
    · intro h; cases h
  intro h
  unfold parsePacket at h
  split at h
  · rename_i hc; exact check_noPanic _ hc
  · cases h
  · cases h
  · split at h
    · cases h
    · cases h
    · rename_i hq; exact hp hq

example : ((0x3b : UInt8) >>> 4).toNat ∈ [0, 1, 3, 10, 12, 13] := by decide

/-- C20: the completeness check itself never aborts in a release build. -/
theorem C20_check_no_abort (b : Buf) : check .release b ≠ .panic := check_noPanic b

end Mercurio
