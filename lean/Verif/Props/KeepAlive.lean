import Verif.Spec.KeepAlive
import Verif.Lemmas.Storage
import Mathlib.Tactic.Linarith
import Mathlib.Tactic.Ring
import Mathlib.Tactic.IntervalCases

/-!
# Keep-alive, pings and accept backoff
-/

namespace Mercurio

open Spec

section ServerTimer

theorem keepAliveTimeout_pos {k : UInt16} (hk : 0 < k) :
    keepAliveTimeout k = 1000 * (k.toNat * 3 / 2) := by
  have : k ≠ 0 := by rintro rfl; exact absurd hk (by decide +kernel)
  simp [keepAliveTimeout, this]

theorem timeout_lt {k : UInt16} (hk : 0 < k) : keepAliveTimeout k < 1000 * 2 ^ 17 := by
  rw [keepAliveTimeout_pos hk]
  have := k.toNat_lt
  omega

theorem instantAdd_ok {k : UInt16} (hk : 0 < k) {t : Nat} (ht : t < 1000 * 2 ^ 62) :
    instantAdd t (keepAliveTimeout k) = some (t + keepAliveTimeout k) := by
  have := timeout_lt hk
  unfold instantAdd instantMaxSecs
  rw [if_pos]
  omega

theorem lastHeard_snoc (s : Nat) (l : List Arrival) (a : Arrival) :
    lastHeard s (l ++ [a]) = a.finished := by
  simp [lastHeard]

theorem Timer.packets_snoc (k : UInt16) (s : Nat) (l : List Arrival) (a : Arrival) :
    Timer.packets k s (l ++ [a]) = (Timer.packets k s l).packet k a := by
  simp [Timer.packets]

theorem Spec.NeverIdle.prefix {limit s : Nat} {l l' : List Arrival} (h : NeverIdle limit s (l ++ l')) :
    NeverIdle limit s l :=
  fun b a c e => h b a (c ++ l') (by simp [e])

theorem Spec.InOrder.prefix {s : Nat} {l l' : List Arrival} (h : InOrder s (l ++ l')) :
    InOrder s l :=
  fun b a c e => h b a (c ++ l') (by simp [e])

theorem Timer.packets_append_of_expired {k : UInt16} {s t : Nat} {l : List Arrival}
    (h : Timer.packets k s l = .expired t) (l' : List Arrival) :
    Timer.packets k s (l ++ l') = .expired t := by
  induction l' using snoc_induction with
  | h0 => simpa using h
  | hs l' a ih => rw [← List.append_assoc, packets_snoc, ih]; rfl

/-- C50, the "only when" half, over whole schedules: with keep-alive `k > 0`, a client each of
whose packets comes within ⌊1.5 k⌋ seconds of the one before is never disconnected, and the
connection would be closed ⌊1.5 k⌋ seconds after the last packet. Clock values are below 2^62
seconds. -/
theorem C50_kept_open {k : UInt16} (hk : 0 < k) {start : Nat} {l : List Arrival}
    (hs : start < 1000 * 2 ^ 62) (hl : ∀ a ∈ l, a.finished < 1000 * 2 ^ 62)
    (h : NeverIdle (1000 * (3 * k.toNat / 2)) start l) :
    Timer.packets k start l = .running (lastHeard start l + 1000 * (3 * k.toNat / 2)) := by
  have hT : 1000 * (3 * k.toNat / 2) = keepAliveTimeout k := by
    rw [keepAliveTimeout_pos hk, Nat.mul_comm 3]
  rw [hT] at h ⊢
  induction l using snoc_induction with
  | h0 => simp [Timer.packets, Timer.start, sleepUntil, instantAdd_ok hk hs, lastHeard]
  | hs l a ih =>
    rw [Timer.packets_snoc, ih (fun b hb => hl b (by simp [hb])) h.prefix, lastHeard_snoc]
    have := h l a [] rfl
    simp [Timer.packet, this, instantAdd_ok hk (hl a (by simp))]

/-- C50, the "when" half: if a client goes quiet for ⌊1.5 k⌋ seconds it is disconnected, exactly
⌊1.5 k⌋ seconds after its last packet, whatever it sends later (`preferred = false`: the task was
idle when the deadline struck). -/
theorem C50_closed_when_idle {k : UInt16} (hk : 0 < k) {start : Nat} {l later : List Arrival}
    {a : Arrival} (hs : start < 1000 * 2 ^ 62) (hl : ∀ a ∈ l, a.finished < 1000 * 2 ^ 62)
    (h : NeverIdle (1000 * (3 * k.toNat / 2)) start l)
    (ha : lastHeard start l + 1000 * (3 * k.toNat / 2) ≤ a.found) (hp : a.preferred = false) :
    Timer.packets k start (l ++ a :: later) =
      .expired (lastHeard start l + 1000 * (3 * k.toNat / 2)) := by
  have : l ++ a :: later = (l ++ [a]) ++ later := by simp
  rw [this]
  apply Timer.packets_append_of_expired
  rw [Timer.packets_snoc, C50_kept_open hk hs hl h]
  simp [Timer.packet, hp, Nat.not_lt.2 ha]

/-- C50, the same if nothing ever arrives again. -/
theorem C50_closed_when_silent {k : UInt16} (hk : 0 < k) {start : Nat} {l : List Arrival}
    (hs : start < 1000 * 2 ^ 62) (hl : ∀ a ∈ l, a.finished < 1000 * 2 ^ 62)
    (h : NeverIdle (1000 * (3 * k.toNat / 2)) start l) (t : Nat) :
    (Timer.packets k start l).wait t =
      if t < lastHeard start l + 1000 * (3 * k.toNat / 2)
      then .running (lastHeard start l + 1000 * (3 * k.toNat / 2))
      else .expired (lastHeard start l + 1000 * (3 * k.toNat / 2)) := by
  rw [C50_kept_open hk hs hl h]
  by_cases ht : t < lastHeard start l + 1000 * (3 * k.toNat / 2)
  · simp [Timer.wait, ht]
  · simp [Timer.wait, ht, Nat.not_lt.1 ht]

/-- C50, read backwards: whenever a connection has been closed by the timer, there was a moment
at which nothing had arrived for ⌊1.5 k⌋ seconds, and that is when it was closed. -/
theorem C50_closed_only_when_idle {k : UInt16} (hk : 0 < k) {start t : Nat} {l : List Arrival}
    (hs : start < 1000 * 2 ^ 62) (hl : ∀ a ∈ l, a.finished < 1000 * 2 ^ 62)
    (h : Timer.packets k start l = .expired t) :
    ∃ before a after, l = before ++ a :: after ∧
      t = lastHeard start before + 1000 * (3 * k.toNat / 2) ∧ t ≤ a.found := by
  have hT : 1000 * (3 * k.toNat / 2) = keepAliveTimeout k := by
    rw [keepAliveTimeout_pos hk, Nat.mul_comm 3]
  rw [hT]
  have key : ∀ l : List Arrival, (∀ a ∈ l, a.finished < 1000 * 2 ^ 62) →
      Timer.packets k start l = .running (lastHeard start l + keepAliveTimeout k) ∨
      ∃ t, Timer.packets k start l = .expired t ∧ ∃ before a after, l = before ++ a :: after ∧
        t = lastHeard start before + keepAliveTimeout k ∧ t ≤ a.found := by
    intro l
    induction l using snoc_induction with
    | h0 =>
      intro _
      left
      simp [Timer.packets, Timer.start, sleepUntil, instantAdd_ok hk hs, lastHeard]
    | hs l a ih =>
      intro hl
      rcases ih (fun b hb => hl b (by simp [hb])) with e | ⟨t, e, b, a', c, el, et, hle⟩
      · rw [Timer.packets_snoc, e, lastHeard_snoc]
        by_cases hc : a.found < lastHeard start l + keepAliveTimeout k ∨ a.preferred = true
        · left
          simp only [Timer.packet, if_pos hc, instantAdd_ok hk (hl a (by simp))]
        · right
          refine ⟨_, by simp only [Timer.packet, if_neg hc], l, a, [], rfl, rfl, ?_⟩
          omega
      · right
        refine ⟨t, Timer.packets_append_of_expired e [a], b, a', c ++ [a], by simp [el], et, hle⟩
  rcases key l hl with e | ⟨t', e, r⟩
  · rw [e] at h; cases h
  · rw [e] at h; cases h; exact r

/-- a client that pings each 30 s with keep-alive 60 -/
def exArrivals : List Arrival :=
  [⟨31000, 31002, false⟩, ⟨61000, 61001, false⟩, ⟨150900, 150990, true⟩]

example : NeverIdle (1000 * (3 * (60 : UInt16).toNat / 2)) 1000 exArrivals ∧
    ∀ a ∈ exArrivals, a.finished < 1000 * 2 ^ 62 := by
  refine ⟨?_, by decide +kernel⟩
  intro b a c e
  match b, e with
  | [], e => simp [exArrivals] at e; rw [← e.1]; decide +kernel
  | [x], e => simp [exArrivals] at e; rw [← e.1, ← e.2.1]; decide +kernel
  | [x, y], e => simp [exArrivals] at e; rw [← e.1, ← e.2.1, ← e.2.2.1]; decide +kernel
  | x :: y :: z :: w, e => simp [exArrivals] at e

example : Timer.packets 60 1000 (exArrivals ++ [⟨300000, 300001, false⟩, ⟨300002, 300003, false⟩]) =
    .expired 240990 := by decide +kernel

theorem instantAdd_zero {t : Nat} (ht : 1000 ≤ t) :
    instantAdd t (keepAliveTimeout 0) = none := by
  have hk : keepAliveTimeout 0 = 1000 * (2 ^ 63 - 1) := by decide +kernel
  rw [hk]
  unfold instantAdd instantMaxSecs
  rw [if_neg]
  omega

theorem sleepUntil_none {t d : Nat} (h : instantAdd t d = none) : sleepUntil t d = farFuture t := by
  simp [sleepUntil, h]

theorem Timer.packet_none {k : UInt16} {d : Nat} {a : Arrival} (h : a.found < d)
    (e : instantAdd a.finished (keepAliveTimeout k) = none) :
    (Timer.running d).packet k a = .panicked a.finished := by
  simp [Timer.packet, h, e]

theorem Timer.start_zero {t : Nat} (ht : 1000 ≤ t) :
    Timer.start 0 t = .running (farFuture t) := by
  exact congrArg Timer.running (sleepUntil_none (instantAdd_zero ht))

/-- C50 for keep-alive 0, which should mean "never": false. The first packet after the handshake
makes the deadline overflow and the connection's task panic, on every machine whose monotonic
clock has reached one second. -/
theorem C50_zero_false {start : Nat} {a : Arrival} {later : List Arrival}
    (ha : a.found < start + 1000 * (86400 * 365 * 30)) (h1 : 1000 ≤ a.finished)
    (hs : 1000 ≤ start) :
    Timer.packets 0 start (a :: later) = .panicked a.finished := by
  have e : (Timer.start 0 start).packet 0 a = .panicked a.finished := by
    rw [Timer.start_zero hs]
    exact Timer.packet_none ha (instantAdd_zero h1)
  have : ∀ l' : List Arrival, l'.foldl (Timer.packet 0) (.panicked a.finished) =
      .panicked a.finished := by
    intro l'
    induction l' with
    | nil => rfl
    | cons b l' ih => exact ih
  unfold Timer.packets
  rw [List.foldl_cons, e, this]

/-- C50 for keep-alive 0, if no packet follows the handshake: the connection stays open for
thirty years. -/
theorem C50_zero_silent_partial {start t : Nat} (hs : 1000 ≤ start)
    (ht : t < start + 1000 * (86400 * 365 * 30)) :
    ∃ d, t < d ∧ (Timer.packets 0 start []).wait t = .running d := by
  refine ⟨farFuture start, ht, ?_⟩
  have : ¬ farFuture start ≤ t := by unfold farFuture; omega
  unfold Timer.packets
  rw [List.foldl_nil, Timer.start_zero hs]
  exact if_neg this

example : Timer.packets 0 5000 [⟨6000, 6001, false⟩] = .panicked 6001 := by decide +kernel

end ServerTimer

section ClientPings

theorem pingInterval_eq {k : UInt16} (hk : 2 ≤ k) : pingInterval k = 1000 * (k.toNat / 2) := by
  have h2 : 2 ≤ k.toNat := by simpa using UInt16.le_iff_toNat_le.1 hk
  have h0 : k > 0 := by
    show 0 < k
    rw [UInt16.lt_iff_toNat_lt]; simp; omega
  have h1 : (k / 2).toNat = k.toNat / 2 := by simp [UInt16.toNat_div]
  have hm : max (k / 2) 1 = k / 2 := by
    show (if k / 2 ≤ 1 then 1 else k / 2) = k / 2
    rw [ite_eq_right_iff]
    intro h
    rw [UInt16.le_iff_toNat_le] at h
    rw [← UInt16.toNat_inj]
    have : UInt16.toNat 1 = 1 := rfl
    omega
  simp [pingInterval, h0, hm, h1]

theorem Spec.InOrder.finished_le {s : Nat} {b c : List Arrival} {a : Arrival}
    (h : InOrder s (b ++ a :: c)) : a.finished ≤ lastHeard s (b ++ a :: c) := by
  induction c using snoc_induction with
  | h0 => rw [lastHeard_snoc]
  | hs c x ih =>
    have e : b ++ a :: (c ++ [x]) = (b ++ a :: c) ++ [x] := by simp
    rw [e] at h ⊢
    have := h (b ++ a :: c) x [] rfl
    rw [lastHeard_snoc]
    exact (ih h.prefix).trans (this.1.trans this.2)

theorem Spec.InOrder.found_le {s : Nat} {b c : List Arrival} {a x : Arrival}
    (h : InOrder s (b ++ a :: c)) (hx : x ∈ c) : a.found ≤ x.found := by
  obtain ⟨c1, c2, rfl⟩ := List.append_of_mem hx
  have e : b ++ a :: (c1 ++ x :: c2) = (b ++ a :: c1) ++ x :: c2 := by simp
  have ha := h b a _ rfl
  rw [e] at h
  exact ha.2.trans (h.prefix.finished_le.trans (h _ x c2 rfl).1)

/-- between any moment the server has just heard from the client and the deadline that follows,
another packet turns up -/
theorem ping_in_time {k : UInt16} (hk : 2 ≤ k) {start c0 δ now : Nat} {b c : List Arrival}
    (hord : InOrder start (b ++ c)) (hc : start ≤ c0) (hδ : c0 + δ ≤ start + 1000 * k.toNat)
    (hpings : ∀ i, 1 ≤ i → pingTime k c0 i + δ ≤ now →
      ∃ a ∈ b ++ c, pingTime k c0 i ≤ a.found ∧ a.found < pingTime k c0 i + δ)
    (hle : lastHeard start b + (pingInterval k + 1000 * k.toNat) ≤ now) :
    ∃ a ∈ c, a.found < lastHeard start b + (pingInterval k + 1000 * k.toNat) := by
  have hP : 0 < pingInterval k := by
    rw [pingInterval_eq hk]
    have h2 : 2 ≤ k.toNat := by simpa using UInt16.le_iff_toNat_le.1 hk
    omega
  -- `B`: when the last packet of `b` was found
  have hB : ∃ B, start ≤ B ∧ B ≤ lastHeard start b ∧ ∀ a ∈ b, a.found ≤ B := by
    rcases List.eq_nil_or_concat b with rfl | ⟨b', z, rfl⟩
    · exact ⟨start, le_rfl, by simp [lastHeard], by simp⟩
    · rw [List.concat_eq_append] at hord ⊢
      have hz := hord b' z c (by simp)
      have hord' : InOrder start (b' ++ [z]) := hord.prefix
      refine ⟨z.found, ?_, by rw [lastHeard_snoc]; exact hz.2, ?_⟩
      · rcases List.eq_nil_or_concat b' with rfl | ⟨b'', y, rfl⟩
        · simpa [lastHeard] using hz.1
        · have : ∀ l : List Arrival, InOrder start l → start ≤ lastHeard start l := by
            intro l
            induction l using snoc_induction with
            | h0 => intro _; simp [lastHeard]
            | hs l a ih =>
              intro h
              have := h l a [] rfl
              rw [lastHeard_snoc]
              exact (ih h.prefix).trans (this.1.trans this.2)
          exact (this _ hord'.prefix).trans hz.1
      · intro a ha
        rcases List.mem_append.1 ha with h | h
        · obtain ⟨u, v, rfl⟩ := List.append_of_mem h
          exact Spec.InOrder.found_le (s := start) (b := u) (c := v ++ [z])
            (by simpa using hord') (by simp)
        · simp at h; rw [h]
  obtain ⟨B, hsB, hBl, hb⟩ := hB
  have key : ∃ i, 1 ≤ i ∧ B < pingTime k c0 i ∧
      pingTime k c0 i + δ ≤ B + (pingInterval k + 1000 * k.toNat) := by
    unfold pingTime
    rcases Nat.lt_or_ge B c0 with h | h
    · exact ⟨1, le_rfl, by omega, by omega⟩
    · refine ⟨(B - c0) / pingInterval k + 1, Nat.succ_pos _, ?_, ?_⟩
      · have := Nat.lt_div_mul_add hP (a := B - c0)
        rw [Nat.add_mul, Nat.one_mul]
        omega
      · have := Nat.div_mul_le_self (B - c0) (pingInterval k)
        rw [Nat.add_mul, Nat.one_mul]
        omega
  obtain ⟨i, hi, h1, h2⟩ := key
  obtain ⟨a, ha, h3, h4⟩ := hpings i hi (by omega)
  rcases List.mem_append.1 ha with h | h
  · have := hb a h; omega
  · exact ⟨a, h, by omega⟩

/-- C51: a client with keep-alive `k ≥ 2` that sends PINGREQs on its timer is never timed out, at
any time `now`, whatever else it sends. `start` is when the server's timer started and `c0` when
the client's did (after the CONNACK); every ping is picked up by the server less than `δ` after
the client's timer ticks, where the delay of the CONNACK and `δ` together are at most `k`
seconds. Missing: that the server does pick up the pings; it does not, see
`C51_pings_ignored_false`. -/
theorem C51_pings_keep_alive_partial {k : UInt16} (hk : 2 ≤ k) {start c0 δ now : Nat} {l : List Arrival}
    (hs : start < 1000 * 2 ^ 62) (hl : ∀ a ∈ l, a.finished < 1000 * 2 ^ 62)
    (hord : InOrder start l) (hnow : ∀ a ∈ l, a.found ≤ now)
    (hc : start ≤ c0) (hδ : c0 + δ ≤ start + 1000 * k.toNat)
    (hpings : ∀ i, 1 ≤ i → pingTime k c0 i + δ ≤ now →
      ∃ a ∈ l, pingTime k c0 i ≤ a.found ∧ a.found < pingTime k c0 i + δ) :
    ∃ deadline, now < deadline ∧ Timer.packets k start l = .running deadline := by
  have hL : 1000 * (3 * k.toNat / 2) = pingInterval k + 1000 * k.toNat := by
    rw [pingInterval_eq hk]; omega
  have hk0 : 0 < k := by
    have h2 : 2 ≤ k.toNat := by simpa using UInt16.le_iff_toNat_le.1 hk
    rw [UInt16.lt_iff_toNat_lt]; simp; omega
  have hidle : NeverIdle (1000 * (3 * k.toNat / 2)) start l := by
    rw [hL]
    intro b a c e
    by_contra hcon
    rw [Nat.not_lt] at hcon
    subst e
    have hle := hcon.trans (hnow a (by simp))
    obtain ⟨x, hx, hlt⟩ := ping_in_time hk hord hc hδ hpings hle
    rcases List.mem_cons.1 hx with rfl | h
    · omega
    · have := hord.found_le h
      omega
  refine ⟨_, ?_, C50_kept_open hk0 hs hl hidle⟩
  rw [hL]
  by_contra hcon
  rw [Nat.not_lt] at hcon
  obtain ⟨x, hx, -⟩ := ping_in_time (b := l) (c := []) hk (by simpa using hord) hc hδ
    (by simpa using hpings) hcon
  simp at hx

/-- a client with keep-alive 2 whose pings take 400 ms -/
example : ∃ (l : List Arrival) (now : Nat), l ≠ [] ∧ 3300 ≤ now ∧ InOrder 1000 l ∧
    (∀ a ∈ l, a.found ≤ now) ∧
    (∀ i, 1 ≤ i → pingTime 2 1100 i + 500 ≤ now →
      ∃ a ∈ l, pingTime 2 1100 i ≤ a.found ∧ a.found < pingTime 2 1100 i + 500) := by
  refine ⟨[⟨2500, 2501, false⟩, ⟨3500, 3502, false⟩], 3700, by simp, by omega, ?_, by decide +kernel, ?_⟩
  · intro b a c e
    match b, e with
    | [], e => simp at e; rw [← e.1]; decide +kernel
    | [x], e => simp at e; rw [← e.1, ← e.2.1]; decide +kernel
    | x :: y :: w, e => simp at e
  · intro i h1 h2
    have hp : pingInterval 2 = 1000 := by decide +kernel
    unfold pingTime at h2 ⊢
    rw [hp] at h2 ⊢
    have : i = 1 ∨ i = 2 := by omega
    rcases this with rfl | rfl
    · exact ⟨⟨2500, 2501, false⟩, by simp, by decide +kernel⟩
    · exact ⟨⟨3500, 3502, false⟩, by simp, by decide +kernel⟩

/-- C51 at `k = 1`, the value left out: the two intervals are equal, so any delay of a ping gets
the client disconnected. -/
theorem C51_one_second (start d : Nat) (hs : start < 1000 * 2 ^ 62) (later : List Arrival) :
    Timer.packets 1 start (⟨pingTime 1 start 1 + d, pingTime 1 start 1 + d, false⟩ :: later) =
      .expired (start + 1000) := by
  have := C50_closed_when_idle (k := 1) (by decide +kernel) (start := start) (l := []) (later := later)
    (a := ⟨pingTime 1 start 1 + d, pingTime 1 start 1 + d, false⟩) hs (by simp)
    (by intro b a c e; simp at e)
    (by show start + 1000 * 1 ≤ start + 1 * 1000 + d; omega) rfl
  exact this

example := C51_one_second 1000 5 (by decide) []

/-- C51 at `k = 0`, which turns keep-alive off: the client sends no ping for thirty years; and for
no other value does it wait longer than half of it, or one second, for the next one. -/
theorem C51_ping_times (start i : Nat) (hi : 1 ≤ i) :
    start + 1000 * (86400 * 365 * 30) ≤ pingTime 0 start i ∧
    ∀ k : UInt16, k ≠ 0 → pingTime k start (i + 1) = pingTime k start i + 1000 * max (k.toNat / 2) 1 := by
  constructor
  · have e : pingInterval 0 = 1000 * (86400 * 365 * 30) := by decide +kernel
    unfold pingTime
    rw [e]
    have := Nat.mul_le_mul_right (1000 * (86400 * 365 * 30)) hi
    omega
  · intro k hk
    have e : pingInterval k = 1000 * max (k.toNat / 2) 1 := by
      by_cases h1 : k = 1
      · subst h1; decide +kernel
      · have h2 : 2 ≤ k.toNat := by
          have a0 : k.toNat ≠ 0 := fun h => hk (UInt16.toNat_inj.mp h)
          have a1 : k.toNat ≠ 1 := fun h => h1 (UInt16.toNat_inj.mp h)
          omega
        rw [pingInterval_eq (UInt16.le_iff_toNat_le.2 (by simpa using h2))]
        omega
    unfold pingTime
    rw [e, Nat.add_mul, Nat.one_mul]
    omega

end ClientPings

section Accept

theorem Listening.run_snoc (s : Listening) (l : List Bool) (o : Bool) :
    Listening.run s (l ++ [o]) =
      ((Listening.step (Listening.run s l).1 o).1,
        (Listening.run s l).2 ++ (Listening.step (Listening.run s l).1 o).2) := by
  induction l generalizing s with
  | nil => simp [Listening.run]
  | cons x l ih => simp [Listening.run, ih]

theorem trailingFailures_true (l : List Bool) : trailingFailures (l ++ [true]) = 0 := by
  simp [trailingFailures]

theorem trailingFailures_false (l : List Bool) :
    trailingFailures (l ++ [false]) = trailingFailures l + 1 := by
  simp [trailingFailures]

theorem prefix_snoc {l p : List Bool} {o : Bool} (h : p <+: l ++ [o]) : p <+: l ∨ p = l ++ [o] := by
  rcases List.prefix_concat_iff.1 h with h | h
  · exact .inr h
  · exact .inl h

/-- the listener's state, from the number of failures since the last success -/
theorem listening_state (l : List Bool) :
    ((∀ p, p <+: l → trailingFailures p < 8) ∧
      (Listening.run Listening.init l).1 = some (2 ^ trailingFailures l)) ∨
    ((∃ p, p <+: l ∧ 8 ≤ trailingFailures p) ∧ (Listening.run Listening.init l).1 = none) := by
  induction l using snoc_induction with
  | h0 =>
    left
    refine ⟨?_, rfl⟩
    intro p hp
    have : p = [] := List.prefix_nil.1 hp
    subst this
    decide
  | hs l o ih =>
    rw [Listening.run_snoc]
    rcases ih with ⟨h1, h2⟩ | ⟨⟨p, hp, h8⟩, h2⟩
    · rw [h2]
      have hlt := h1 l (List.prefix_refl l)
      cases o with
      | true =>
        left
        refine ⟨?_, by rw [trailingFailures_true]; rfl⟩
        intro p hp
        rcases prefix_snoc hp with h | rfl
        · exact h1 p h
        · rw [trailingFailures_true]; omega
      | false =>
        by_cases h7 : trailingFailures l = 7
        · right
          refine ⟨⟨l ++ [false], List.prefix_refl _, by rw [trailingFailures_false, h7]⟩, ?_⟩
          rw [h7]; rfl
        · left
          refine ⟨?_, ?_⟩
          · intro p hp
            rcases prefix_snoc hp with h | rfl
            · exact h1 p h
            · rw [trailingFailures_false]; omega
          · rw [trailingFailures_false]
            have : ¬ 2 ^ trailingFailures l > 64 := by
              have : 2 ^ trailingFailures l ≤ 2 ^ 6 :=
                Nat.pow_le_pow_right (by omega) (by omega)
              omega
            simp [Listening.step, this, Nat.pow_succ]
    · right
      rw [h2]
      exact ⟨⟨p, hp.trans (List.prefix_append l [o]), h8⟩, rfl⟩

/-- C52: the listener is still running after a sequence of accept outcomes iff no eight failures
came in a row. -/
theorem C52_survives (l : List Bool) :
    (Listening.run Listening.init l).1 ≠ none ↔ ∀ p, p <+: l → trailingFailures p < 8 := by
  rcases listening_state l with ⟨h1, h2⟩ | ⟨⟨p, hp, h8⟩, h2⟩
  · simp [h2]; exact h1
  · simp only [h2, ne_eq, not_true_eq_false, false_iff]
    intro h
    have := h p hp
    omega

/-- C52, in terms of runs: eight failures in a row stop it, wherever they are. -/
theorem C52_eight_in_a_row (l : List Bool) :
    (Listening.run Listening.init l).1 = none ↔ List.replicate 8 false <:+: l := by
  rw [← not_iff_not, ← ne_eq, C52_survives]
  constructor
  · rintro h ⟨u, v, e⟩
    have := h (u ++ List.replicate 8 false) ⟨v, e⟩
    have h8 : ∀ (n : Nat), trailingFailures (u ++ List.replicate n false) = trailingFailures u + n := by
      intro n
      induction n with
      | zero => simp
      | succ n ih =>
        rw [List.replicate_succ', ← List.append_assoc, trailingFailures_false, ih]
        omega
    rw [h8] at this
    omega
  · intro h p hp
    by_contra hc
    rw [Nat.not_lt] at hc
    apply h
    obtain ⟨v, rfl⟩ := hp
    have hsuf : List.replicate 8 false <:+ p := by
      rw [← List.reverse_prefix, List.reverse_replicate]
      unfold trailingFailures at hc
      have htw : List.takeWhile (· = false) p.reverse <+: p.reverse := List.takeWhile_prefix _
      have hall : ∀ x ∈ List.takeWhile (· = false) p.reverse, x = false := by
        intro x hx
        exact of_decide_eq_true ((List.all_eq_true.1 List.all_takeWhile) x hx)
      have hrep := List.eq_replicate_of_mem hall
      refine List.IsPrefix.trans ?_ htw
      rw [hrep]
      exact (List.prefix_replicate_iff).2 ⟨by simpa using hc, by simp⟩
    exact hsuf.isInfix.trans (List.infix_append' [] p v)

/-- C52: what happens at the next outcome. After `n` failures since the last success: a success is
handled; a failure makes the listener sleep `2^n` seconds, or stop if it is the eighth. -/
theorem C52_next (l : List Bool) (h : ∀ p, p <+: l → trailingFailures p < 8) (o : Bool) :
    (Listening.run Listening.init (l ++ [o])).2 = (Listening.run Listening.init l).2 ++
      (if o then [.handled]
       else if trailingFailures l = 7 then [.stopped] else [.slept (2 ^ trailingFailures l)]) := by
  rw [Listening.run_snoc]
  rcases listening_state l with ⟨-, h2⟩ | ⟨⟨p, hp, h8⟩, -⟩
  · have hlt := h l (List.prefix_refl l)
    rw [h2]
    cases o with
    | true => rfl
    | false =>
      by_cases h7 : trailingFailures l = 7
      · rw [h7]; rfl
      · have : ¬ 2 ^ trailingFailures l > 64 := by
          have : 2 ^ trailingFailures l ≤ 2 ^ 6 :=
            Nat.pow_le_pow_right (by omega) (by omega)
          omega
        simp [Listening.step, this, h7]
  · have := h p hp
    omega

/-- C52: once stopped, nothing more is accepted. -/
theorem C52_stopped (l l' : List Bool) (h : (Listening.run Listening.init l).1 = none) :
    (Listening.run Listening.init (l ++ l')).2 = (Listening.run Listening.init l).2 := by
  have : (Listening.run Listening.init (l ++ l')).1 = none ∧
      (Listening.run Listening.init (l ++ l')).2 = (Listening.run Listening.init l).2 := by
    induction l' using snoc_induction with
    | h0 => simp [h]
    | hs l' o ih =>
      rw [← List.append_assoc, Listening.run_snoc, ih.1, ih.2]
      exact ⟨rfl, by simp [Listening.step]⟩
  exact this.2

example : Listening.run Listening.init
    [false, false, true, false, false, false, false, false, false, false, false, true] =
    (none, [.slept 1, .slept 2, .handled, .slept 1, .slept 2, .slept 4, .slept 8, .slept 16,
      .slept 32, .slept 64, .stopped]) := by decide +kernel

end Accept

end Mercurio
