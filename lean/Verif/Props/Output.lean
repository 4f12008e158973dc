import Verif.Spec.Output
import Verif.Lemmas.Utf8

/-!
# C127: what `mercurio sub` prints and what arrived
-/

namespace Mercurio

open Spec

theorem line_inj {x y r r' : Str} (hx : (10 : UInt8) ∉ x) (hy : (10 : UInt8) ∉ y) (h : x ++ 10 :: r = y ++ 10 :: r') :
    x = y ∧ r = r' := by
  induction x generalizing y with
  | nil =>
    cases y with
    | nil => exact ⟨rfl, (List.cons.inj h).2⟩
    | cons b y => exact absurd ((List.cons.inj h).1 ▸ List.mem_cons_self) hy
  | cons a x ih =>
    cases y with
    | nil => exact absurd ((List.cons.inj h).1 ▸ List.mem_cons_self) hx
    | cons b y =>
      have h' := List.cons.inj h
      have := ih (fun hm => hx (List.mem_cons_of_mem _ hm)) (fun hm => hy (List.mem_cons_of_mem _ hm)) h'.2
      exact ⟨by rw [h'.1, this.1], this.2⟩

theorem lines_inj (xs ys : List Str) (hx : ∀ x ∈ xs, (10 : UInt8) ∉ x) (hy : ∀ y ∈ ys, (10 : UInt8) ∉ y)
    (h : (xs.map (· ++ [10])).flatten = (ys.map (· ++ [10])).flatten) : xs = ys := by
  induction xs generalizing ys with
  | nil =>
    cases ys with
    | nil => rfl
    | cons y ys => simp at h
  | cons x xs ih =>
    cases ys with
    | nil => simp at h
    | cons y ys =>
      simp only [List.map_cons, List.flatten_cons, List.append_assoc, List.singleton_append] at h
      have h' := line_inj (hx x List.mem_cons_self) (hy y List.mem_cons_self) h
      rw [h'.1, ih ys (fun z hz => hx z (List.mem_cons_of_mem _ hz)) (fun z hz => hy z (List.mem_cons_of_mem _ hz)) h'.2]

theorem colon_bytes : str ": " = [0x3a, 0x20] := by decide +kernel

theorem infix_tail {s : Str} {a : UInt8} {t : Str} (h : ¬ s <:+: a :: t) : ¬ s <:+: t :=
  fun h' => h (h'.trans (List.suffix_cons a t).isInfix)

theorem colon_inj {t t' p p' : Str} (ht : ¬ str ": " <:+: t) (ht' : ¬ str ": " <:+: t')
    (h : t ++ str ": " ++ p = t' ++ str ": " ++ p') : t = t' ∧ p = p' := by
  rw [colon_bytes] at *
  induction t generalizing t' with
  | nil =>
    cases t' with
    | nil => exact ⟨rfl, List.append_cancel_left h⟩
    | cons a t' =>
      cases t' with
      | nil => simp at h
      | cons b t' =>
        simp at h
        obtain ⟨h1, h2, -⟩ := h
        subst h1 h2
        exact absurd ⟨[], t', rfl⟩ ht'
  | cons a t ih =>
    cases t' with
    | nil =>
      cases t with
      | nil => simp at h
      | cons b t =>
        simp at h
        obtain ⟨h1, h2, -⟩ := h
        subst h1 h2
        exact absurd ⟨[], t, rfl⟩ ht
    | cons b t' =>
      simp only [List.cons_append, List.cons.injEq] at h
      have := ih (infix_tail ht) (infix_tail ht') h.2
      exact ⟨by rw [h.1, this.1], this.2⟩

/-- A line without its line feed. -/
def lineText (withTopic : Bool) (x : Option Str × Buf) : Str :=
  (if withTopic then x.1.getD [] ++ str ": " else []) ++ x.2

theorem cliPrint_plain (lossy : Buf → Str) (hl : KeepsText lossy) (b : Bool) (es : List ClientEvent)
    (h : ∀ e ∈ es, PlainMessage e) :
    cliPrint lossy b es = ((es.filterMap (whatArrived b)).map (lineText b)).map (· ++ [10]) := by
  induction es with
  | nil => rfl
  | cons e es ih =>
    have he := h e List.mem_cons_self
    cases e with
    | disconnected r => exact he.elim
    | message t pl q r =>
      have hn : str "\n" = [10] := by decide +kernel
      simp only [cliPrint, cliLine, hl pl he.1, hn, ih (fun x hx => h x (List.mem_cons_of_mem _ hx)), List.filterMap_cons,
        whatArrived, List.map_cons, lineText]
      cases b <;> simp

theorem plain_no_lf (b : Bool) (es : List ClientEvent) (h : ∀ e ∈ es, PlainMessage e) :
    ∀ x ∈ (es.filterMap (whatArrived b)).map (lineText b), (10 : UInt8) ∉ x := by
  intro x hx
  obtain ⟨y, hy, rfl⟩ := List.mem_map.mp hx
  obtain ⟨e, he, hw⟩ := List.mem_filterMap.mp hy
  have hp := h e he
  cases e with
  | disconnected r => exact hp.elim
  | message t pl q r =>
    simp only [whatArrived, Option.some.injEq] at hw
    subst hw
    have hc : (10 : UInt8) ∉ str ": " := by rw [colon_bytes]; decide
    cases b with
    | false => simpa [lineText] using hp.2.1
    | true => simpa [lineText] using ⟨hp.2.2.1, hc, hp.2.1⟩

theorem plain_inj (b : Bool) : ∀ (es es' : List ClientEvent), (∀ e ∈ es, PlainMessage e) → (∀ e ∈ es', PlainMessage e) →
    (es.filterMap (whatArrived b)).map (lineText b) = (es'.filterMap (whatArrived b)).map (lineText b) →
    es.filterMap (whatArrived b) = es'.filterMap (whatArrived b) := by
  intro es
  induction es with
  | nil =>
    intro es' _ _ h
    exact (List.map_eq_nil_iff.mp h.symm).symm
  | cons e es ih =>
    intro es' h1 h2 h
    have he := h1 e List.mem_cons_self
    cases e with
    | disconnected r => exact he.elim
    | message t pl q r =>
      cases es' with
      | nil => simp [whatArrived] at h
      | cons e' es' =>
        have he' := h2 e' List.mem_cons_self
        cases e' with
        | disconnected r => exact he'.elim
        | message t' pl' q' r' =>
          simp only [List.filterMap_cons, whatArrived, List.map_cons, List.cons.injEq] at h ⊢
          refine ⟨?_, ih es' (fun x hx => h1 x (List.mem_cons_of_mem _ hx)) (fun x hx => h2 x (List.mem_cons_of_mem _ hx)) h.2⟩
          have h' := h.1
          cases b with
          | false => simp only [lineText, Bool.false_eq_true, if_false, List.nil_append] at h' ⊢; rw [h']
          | true =>
            simp only [lineText, if_true, Option.getD_some] at h' ⊢
            have := colon_inj he.2.2.2 he'.2.2.2 h'
            rw [this.1, this.2]

/-- C127, as far as it holds: if all payloads are texts of one line, and the topics they are given under are of one line and have no colon followed by
a space in them, then what `mercurio sub` prints shows what has arrived, and in which order: what prints the same is the same.
Missing: other messages (`C127_forged_false`). -/
theorem C127_shows_partial (lossy : Buf → Str) (hl : KeepsText lossy) (withTopic : Bool) (es es' : List ClientEvent)
    (h : ∀ e ∈ es, PlainMessage e) (h' : ∀ e ∈ es', PlainMessage e)
    (heq : (cliPrint lossy withTopic es).flatten = (cliPrint lossy withTopic es').flatten) :
    es.filterMap (whatArrived withTopic) = es'.filterMap (whatArrived withTopic) := by
  rw [cliPrint_plain lossy hl withTopic es h, cliPrint_plain lossy hl withTopic es' h'] at heq
  exact plain_inj withTopic es es' h h' (lines_inj _ _ (plain_no_lf _ _ h) (plain_no_lf _ _ h') heq)

theorem isUtf8_append {a b : Buf} (ha : IsUtf8 a) (hb : IsUtf8 b) : IsUtf8 (a ++ b) := by
  obtain ⟨x, rfl⟩ := ha
  obtain ⟨y, rfl⟩ := hb
  exact ⟨x ++ y, by rw [List.flatMap_append]⟩

/-- C127 is false, in general: whatever two messages one would like to have shown, there is a single one that prints the
same - any text for a payload, under any topic, can be followed by a line that looks like a message under any other topic. -/
theorem C127_forged_false (lossy : Buf → Str) (hl : KeepsText lossy) (t t' : Str) (a b : Buf) (ht : IsUtf8 t')
    (ha : IsUtf8 a) (hb : IsUtf8 b) (q q' : QoS) (r r' : Bool) :
    ∃ c : Buf, IsUtf8 c ∧ ∀ q'' r'',
      (cliPrint lossy true [.message t c q'' r'']).flatten = (cliPrint lossy true [.message t a q r, .message t' b q' r']).flatten := by
  have hn : str "\n" = [10] := by decide +kernel
  have h10 : IsUtf8 (str "\n") := by rw [hn]; exact isUtf8_of_one (by decide) .nil
  have hc : IsUtf8 (str ": ") := by
    rw [colon_bytes]; exact isUtf8_of_one (by decide) (isUtf8_of_one (by decide) .nil)
  have hall : IsUtf8 (a ++ (str "\n" ++ (t' ++ (str ": " ++ b)))) :=
    isUtf8_append ha (isUtf8_append h10 (isUtf8_append ht (isUtf8_append hc hb)))
  refine ⟨_, hall, fun q'' r'' => ?_⟩
  simp only [cliPrint, cliLine, if_true, hl _ hall, hl a ha, hl b hb, List.flatten_cons, List.flatten_nil, List.append_nil,
    List.append_assoc]

/-- Nor does it say how many messages there were, without topics: a message of several lines prints like several messages. -/
theorem C127_several_false (lossy : Buf → Str) (hl : KeepsText lossy) (t : Str) (a b : Buf) (ha : IsUtf8 a) (hb : IsUtf8 b)
    (q : QoS) (r : Bool) :
    (cliPrint lossy false [.message t (a ++ [10] ++ b) q r]).flatten =
      (cliPrint lossy false [.message t a q r, .message t b q r]).flatten := by
  have hn : str "\n" = [10] := by decide +kernel
  have hall : IsUtf8 (a ++ ([10] ++ b)) :=
    isUtf8_append ha (isUtf8_append (isUtf8_of_one (by decide) .nil) hb)
  rw [List.append_assoc]
  simp only [cliPrint, cliLine, Bool.false_eq_true, if_false, hl _ hall, hl a ha, hl b hb, hn, List.flatten_cons, List.flatten_nil,
    List.append_nil, List.append_assoc]

/-! ## Examples -/

/-- Two plain messages, and their lines. -/
example : (∀ e ∈ [ClientEvent.message (str "home/+") (str "21.5") .atMostOnce false, .message (str "door") (str "open: no") .atLeastOnce true],
      PlainMessage e) ∧
    KeepsText (fun b => b) ∧
    (cliPrint (fun b => b) true [.message (str "home/+") (str "21.5") .atMostOnce false,
      .message (str "door") (str "open: no") .atLeastOnce true]).flatten = str "home/+: 21.5\ndoor: open: no\n" := by
  have hi : ∀ t : Str, (0x3a : UInt8) ∉ t → ¬ str ": " <:+: t := by
    intro t h hi
    exact h (hi.subset (by rw [colon_bytes]; decide))
  refine ⟨?_, fun _ _ => rfl, by decide +kernel⟩
  intro e he
  simp only [List.mem_cons, List.not_mem_nil, or_false] at he
  rcases he with rfl | rfl
  · exact ⟨by decide +kernel, by decide +kernel, by decide +kernel, hi _ (by decide +kernel)⟩
  · exact ⟨by decide +kernel, by decide +kernel, by decide +kernel, hi _ (by decide +kernel)⟩

/-- A message about the weather that prints like one about the weather and one about the alarm. -/
example : IsUtf8 (str "alarm") ∧ IsUtf8 (str "rain") ∧ IsUtf8 (str "off") ∧
    (cliPrint (fun b => b) true [.message (str "weather") (str "rain\nalarm: off") .atMostOnce false]).flatten =
      (cliPrint (fun b => b) true [.message (str "weather") (str "rain") .atMostOnce false,
        .message (str "alarm") (str "off") .atMostOnce false]).flatten := by
  refine ⟨by decide +kernel, by decide +kernel, by decide +kernel, by decide +kernel⟩

end Mercurio
