import Verif.Props.Multihop
/-!
Property theorems about the router's quotes: C121.
-/
namespace Phoenix.Props.Multihop
open Phoenix Phoenix.World Phoenix.World.Spec Phoenix.Spec

theorem verifyReverse_ok : ∀ {ops : List Multihop.Op}, Phoenix.Multihop.verifyReverseSwap ops = .ok () ↔ LinkedBack ops
  | [] => by simp [Phoenix.Multihop.verifyReverseSwap, LinkedBack]
  | [a] => by simp [Phoenix.Multihop.verifyReverseSwap, LinkedBack]
  | a :: b :: l => by
    have ih := verifyReverse_ok (ops := b :: l)
    simp only [Phoenix.Multihop.verifyReverseSwap, bind_ok, req_ok, LinkedBack, List.isChain_cons_cons]
    unfold LinkedBack at ih
    rw [ih]
    simp

/-- the answer so far, followed by the answers `l` -/
def follow (q : Quote) (l : List HopQuote) : Quote :=
  ⟨match l.getLast? with | some h => h.amount | none => q.amount, q.commissions ++ l.map (·.commission),
    q.spreads ++ l.map (·.spread)⟩

theorem follow_cons (q : Quote) (h : HopQuote) (l : List HopQuote) :
    follow q (h :: l) = follow ⟨h.amount, q.commissions ++ [h.commission], q.spreads ++ [h.spread]⟩ l := by
  cases l with
  | nil => simp [follow]
  | cons a l => simp [follow, List.getLast?_cons]

theorem pool_loaded {p : Option Pool.State} {q : Pool.State} : Pool.loaded p = .ok q ↔ p = some q := by
  cases p <;> simp [Pool.loaded]
theorem stable_loaded {p : Option Stable.State} {q : Stable.State} : Stable.loaded p = .ok q ↔ p = some q := by
  cases p <;> simp [Stable.loaded]

theorem simulate_iff {w : World} {now : Nat} {P offer : Addr} {x a com sp : Int} :
    poolSimulate w now P offer x = .ok (a, com, sp) ↔ Quotes w now P offer x ⟨a, com, sp⟩ := by
  unfold poolSimulate Quotes
  cases hc : w.code P <;> simp only [reduceCtorEq, false_and, or_false, false_or, true_and]
  · rw [bind_ok]
    simp only [pool_loaded, bind_ok, Prod.exists, ok_inj, Prod.mk.injEq]
    constructor
    · rintro ⟨p, hp, a, b, c, t, hq, rfl, rfl, rfl⟩; exact ⟨p, t, hp, hq⟩
    · rintro ⟨p, t, hp, hq⟩; exact ⟨p, hp, _, _, _, t, hq, rfl, rfl, rfl⟩
  · rw [bind_ok]
    simp only [stable_loaded, bind_ok, Prod.exists, ok_inj, Prod.mk.injEq]
    constructor
    · rintro ⟨p, hp, a, b, c, t, hq, rfl, rfl, rfl⟩; exact ⟨p, t, hp, hq⟩
    · rintro ⟨p, t, hp, hq⟩; exact ⟨p, hp, _, _, _, t, hq, rfl, rfl, rfl⟩

theorem reverse_iff {w : World} {now : Nat} {P asset : Addr} {x a com sp : Int} :
    poolSimulateReverse w now P asset x = .ok (a, com, sp) ↔ QuotesBack w now P asset x ⟨a, com, sp⟩ := by
  unfold poolSimulateReverse QuotesBack
  cases hc : w.code P <;> simp only [reduceCtorEq, false_and, or_false, false_or, true_and]
  · rw [bind_ok]
    simp only [pool_loaded, bind_ok, Prod.exists, ok_inj, Prod.mk.injEq]
    constructor
    · rintro ⟨p, hp, a, b, c, hq, rfl, rfl, rfl⟩; exact ⟨p, hp, hq⟩
    · rintro ⟨p, hp, hq⟩; exact ⟨p, hp, _, _, _, hq, rfl, rfl, rfl⟩
  · rw [bind_ok]
    simp only [stable_loaded, bind_ok, Prod.exists, ok_inj, Prod.mk.injEq]
    constructor
    · rintro ⟨p, hp, a, b, c, hq, rfl, rfl, rfl⟩; exact ⟨p, hp, hq⟩
    · rintro ⟨p, hp, hq⟩; exact ⟨p, hp, _, _, _, hq, rfl, rfl, rfl⟩

theorem simLoop_answers {w : World} {now : Nat} {F : Addr} : ∀ {ops : List Multihop.Op} {x : Int} {q q' : Quote},
    simLoop w now F ops x q = .ok q' ↔
      ∃ l, Answers (fun P op => Quotes w now P op.offer) w F ops x l ∧ q' = follow q l
  | [], x, q, q' => by
    simp only [simLoop, ok_inj]
    constructor
    · rintro rfl; exact ⟨[], .done x, by simp [follow]⟩
    · rintro ⟨l, hl, rfl⟩; cases hl; simp [follow]
  | op :: ops, x, q, q' => by
    simp only [simLoop, bind_ok, Prod.exists]
    constructor
    · rintro ⟨P, hP, a, com, sp, ha, e⟩
      obtain ⟨l, hl, rfl⟩ := simLoop_answers.mp e
      exact ⟨⟨a, com, sp⟩ :: l, .hop hP (simulate_iff.mp ha) hl, (follow_cons q ⟨a, com, sp⟩ l).symm⟩
    · rintro ⟨l, hl, rfl⟩
      cases hl with
      | hop find answer rest => exact ⟨_, find, _, _, _, simulate_iff.mpr answer, simLoop_answers.mpr ⟨_, rest, follow_cons q _ _⟩⟩

theorem revLoop_answers {w : World} {now : Nat} {F : Addr} : ∀ {ops : List Multihop.Op} {x : Int} {q q' : Quote},
    revLoop w now F ops x q = .ok q' ↔
      ∃ l, Answers (fun P op => QuotesBack w now P op.ask) w F ops x l ∧ q' = follow q l
  | [], x, q, q' => by
    simp only [revLoop, ok_inj]
    constructor
    · rintro rfl; exact ⟨[], .done x, by simp [follow]⟩
    · rintro ⟨l, hl, rfl⟩; cases hl; simp [follow]
  | op :: ops, x, q, q' => by
    simp only [revLoop, bind_ok, Prod.exists]
    constructor
    · rintro ⟨P, hP, a, com, sp, ha, e⟩
      obtain ⟨l, hl, rfl⟩ := revLoop_answers.mp e
      exact ⟨⟨a, com, sp⟩ :: l, .hop hP (reverse_iff.mp ha) hl, (follow_cons q ⟨a, com, sp⟩ l).symm⟩
    · rintro ⟨l, hl, rfl⟩
      cases hl with
      | hop find answer rest => exact ⟨_, find, _, _, _, reverse_iff.mpr answer, revLoop_answers.mpr ⟨_, rest, follow_cons q _ _⟩⟩

theorem follow_start (l : List HopQuote) : follow ⟨0, [], []⟩ l = total l := by
  unfold follow total
  cases l.getLast? <;> simp

/-- **C121** `simulate_swap` answers exactly when the route is not empty, each operation offers what the one before it
asks for, the router is set up, and every pool on the way answers; and then it answers the last amount with the
commissions and spreads of all hops in order. -/
theorem C121_quote_iff {w : World} {now : Nat} {H : Addr} {ops : List Multihop.Op} {x : Int} {q : Quote} :
    hopSimulate w now H ops x = .ok q ↔ ops ≠ [] ∧ Linked ops ∧ ∃ m, w.hop H = some m ∧
      ∃ l, Answers (fun P op => Quotes w now P op.offer) w m.factory ops x l ∧ q = total l := by
  unfold hopSimulate
  simp only [bind_ok, req_ok, hop_loaded, simLoop_answers, follow_start]
  constructor
  · rintro ⟨_, h1, _, h2, h3⟩; exact ⟨h1, verify_ok.mp h2, h3⟩
  · rintro ⟨h1, h2, h3⟩; exact ⟨(), h1, (), verify_ok.mpr h2, h3⟩

/-- **C121** `simulate_reverse_swap` answers exactly when the route is not empty, each operation asks for what the one
before it offers, the router is set up, and every pool on the way answers its reverse quote; and then it answers
the last amount with the commissions and spreads of all hops in order. -/
theorem C121_reverse_quote_iff {w : World} {now : Nat} {H : Addr} {ops : List Multihop.Op} {x : Int} {q : Quote} :
    hopSimulateReverse w now H ops x = .ok q ↔ ops ≠ [] ∧ LinkedBack ops ∧ ∃ m, w.hop H = some m ∧
      ∃ l, Answers (fun P op => QuotesBack w now P op.ask) w m.factory ops x l ∧ q = total l := by
  unfold hopSimulateReverse
  simp only [bind_ok, req_ok, hop_loaded, revLoop_answers, follow_start]
  constructor
  · rintro ⟨_, h1, _, h2, h3⟩; exact ⟨h1, verifyReverse_ok.mp h2, h3⟩
  · rintro ⟨h1, h2, h3⟩; exact ⟨(), h1, (), verifyReverse_ok.mpr h2, h3⟩

/-- Two hops each way are answered; routes that do not link up in the right direction are not. -/
example : (hopSimulate exW 10 Example.router [⟨21, 20, none⟩, ⟨22, 21, none⟩] 1000).isOk = true ∧
    (hopSimulateReverse exW 10 Example.router [⟨22, 21, none⟩, ⟨21, 20, none⟩] 1000).isOk = true ∧
    (hopSimulate exW 10 Example.router [⟨22, 21, none⟩, ⟨21, 20, none⟩] 1000).isOk = false ∧
    (hopSimulateReverse exW 10 Example.router [⟨21, 20, none⟩, ⟨22, 21, none⟩] 1000).isOk = false := by decide +kernel

end Phoenix.Props.Multihop
