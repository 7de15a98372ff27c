import Verif.Props.Token
import Verif.Spec.TokenAccept
/-!
Property C119: which calls a token accepts.
-/
namespace Phoenix.Props
open Phoenix Spec

theorem inI {x : Int} (h : 0 ≤ x) (h' : x ≤ I128_MAX) : InI128 x := by
  simp only [InI128, I128_MIN]; omega

theorem spend_iff {t : Token} (h : TokenOK t) {a : Addr} {x : Int} (hx : 0 ≤ x) : (∃ t', t.spend a x = .ok t') ↔ x ≤ t.bal a := by
  simp only [Token.spend_ok]
  constructor
  · rintro ⟨_, h1, -⟩; exact h1
  · intro h1
    have := (h.1 a).2
    exact ⟨_, h1, inI (by omega) (by omega), rfl⟩

theorem receive_iff {t : Token} (h : TokenOK t) {a : Addr} {x : Int} (hx : 0 ≤ x) : (∃ t', t.receive a x = .ok t') ↔ Room t a x := by
  simp only [Token.receive_ok, Room]
  constructor
  · rintro ⟨_, h1, -⟩; exact h1.2
  · intro h1
    have := (h.1 a).1
    exact ⟨_, inI (by omega) h1, rfl⟩

/-- spending and receiving, of the same account or of two -/
theorem move_iff {t : Token} (h : TokenOK t) {s d : Addr} {x : Int} (hx : 0 ≤ x) :
    (∃ t' t1, t.spend s x = .ok t1 ∧ t1.receive d x = .ok t') ↔ x ≤ t.bal s ∧ (s = d ∨ Room t d x) := by
  constructor
  · rintro ⟨t', t1, e1, e2⟩
    have k1 := (spend_iff h hx).mp ⟨_, e1⟩
    refine ⟨k1, ?_⟩
    have k2 := (receive_iff (token_spend_keeps h hx e1) hx).mp ⟨_, e2⟩
    rw [Token.spend_ok] at e1
    obtain ⟨-, -, rfl⟩ := e1
    by_cases e : s = d
    · exact .inl e
    · right
      simpa only [Room, upd_ne _ _ (Ne.symm e)] using k2
  · rintro ⟨k1, k2⟩
    obtain ⟨t1, e1⟩ := (spend_iff h hx).mpr k1
    have e1' := e1
    rw [Token.spend_ok] at e1'
    obtain ⟨-, -, rfl⟩ := e1'
    obtain ⟨t', e2⟩ := (receive_iff (a := d) (token_spend_keeps h hx e1) hx).mpr (by
      by_cases e : s = d
      · subst e
        have := (h.1 s).2
        simp only [Room, upd_same]; omega
      · have := k2.resolve_left e
        simpa only [Room, upd_ne _ _ (Ne.symm e)] using this)
    exact ⟨t', _, e1, e2⟩

theorem allowed_iff {t : Token} (h : TokenOK t) {seq : Nat} {o s : Addr} {x : Int} (hx : 0 ≤ x) :
    (∃ t', t.spendAllowance seq o s x = .ok t') ↔ x ≤ (t.readAllowance seq o s).amount := by
  constructor
  · rintro ⟨_, e⟩
    exact (Token.spendAllowance_ok e).1
  · intro k
    unfold Token.spendAllowance
    simp only [bind_ok, req_ok]
    by_cases h0 : 0 < x
    · have hb := readAllowance_amount_le h seq o s
      have hexp : ¬ (t.readAllowance seq o s).exp < seq := by
        intro q
        unfold Token.readAllowance at k q
        simp only at k q
        split at k
        · simp only at k; omega
        · rename_i e; rw [if_neg e] at q; exact e q
      simp only [if_pos h0, bind_ok, subI_ok, Token.writeAllowance_ok]
      exact ⟨_, (), k, _, ⟨inI (by omega) (by omega), rfl⟩, by omega, rfl⟩
    · rw [if_neg h0]
      exact ⟨_, (), k, rfl⟩

theorem call_iff {c : Ctx} {t : Token} (h : TokenOK t) (op : TokenOp) : (∃ t', t.call c op = .ok t') ↔ Acceptable c t op := by
  cases op with
  | mint d x =>
    simp only [Token.call, Token.mint, Token.checkNonneg, bind_ok, req_ok, requireAuth_ok, Acceptable]
    constructor
    · rintro ⟨t', _, h0, _, h1, h2⟩
      exact ⟨h1, h0, (receive_iff h h0).mp ⟨_, h2⟩⟩
    · rintro ⟨h1, h0, h2⟩
      obtain ⟨t', e⟩ := (receive_iff h h0).mpr h2
      exact ⟨t', (), h0, (), h1, e⟩
  | setAdmin a =>
    simp only [Token.call, Token.setAdmin, bind_ok, requireAuth_ok, ok_inj, Acceptable]
    exact ⟨fun ⟨_, _, h1, _⟩ => h1, fun h1 => ⟨_, (), h1, rfl⟩⟩
  | approve o s x e =>
    simp only [Token.call, Token.approve, Token.checkNonneg, bind_ok, req_ok, requireAuth_ok, Token.writeAllowance_ok, Acceptable]
    constructor
    · rintro ⟨_, _, h1, _, h0, h2, -⟩
      exact ⟨h1, h0, by omega⟩
    · rintro ⟨h1, h0, h2⟩
      exact ⟨_, (), h1, (), h0, by omega, rfl⟩
  | transfer s d x =>
    simp only [Token.call, Token.transfer, Token.checkNonneg, bind_ok, req_ok, requireAuth_ok, Acceptable]
    constructor
    · rintro ⟨t', _, h1, _, h0, t1, e⟩
      exact ⟨h1, h0, (move_iff h h0).mp ⟨_, _, e⟩⟩
    · rintro ⟨h1, h0, h2⟩
      obtain ⟨t', t1, e⟩ := (move_iff h h0).mpr h2
      exact ⟨t', (), h1, (), h0, t1, e⟩
  | transferFrom p s d x =>
    simp only [Token.call, Token.transferFrom, Token.checkNonneg, bind_ok, req_ok, requireAuth_ok, Acceptable, Token.allowanceOf]
    constructor
    · rintro ⟨t', _, h1, _, h0, t0, e0, t1, e⟩
      have k := (move_iff (spendAllowance_keeps h e0) h0).mp ⟨_, _, e⟩
      have hb := (Token.spendAllowance_ok e0).2.1
      simp only [Room, hb] at k
      exact ⟨h1, h0, (allowed_iff h h0).mp ⟨_, e0⟩, k⟩
    · rintro ⟨h1, h0, h2, h3⟩
      obtain ⟨t0, e0⟩ := (allowed_iff h h0).mpr h2
      have hb := (Token.spendAllowance_ok e0).2.1
      obtain ⟨t', t1, e⟩ := (move_iff (d := d) (spendAllowance_keeps h e0) h0).mpr (by simp only [Room, hb]; exact h3)
      exact ⟨t', (), h1, (), h0, t0, e0, t1, e⟩
  | burn s x =>
    simp only [Token.call, Token.burn, Token.checkNonneg, bind_ok, req_ok, requireAuth_ok, Acceptable]
    constructor
    · rintro ⟨t', _, h1, _, h0, e⟩
      exact ⟨h1, h0, (spend_iff h h0).mp ⟨_, e⟩⟩
    · rintro ⟨h1, h0, h2⟩
      obtain ⟨t', e⟩ := (spend_iff h h0).mpr h2
      exact ⟨t', (), h1, (), h0, e⟩
  | burnFrom p s x =>
    simp only [Token.call, Token.burnFrom, Token.checkNonneg, bind_ok, req_ok, requireAuth_ok, Acceptable, Token.allowanceOf]
    constructor
    · rintro ⟨t', _, h1, _, h0, t0, e0, e⟩
      have k := (spend_iff (spendAllowance_keeps h e0) h0).mp ⟨_, e⟩
      rw [(Token.spendAllowance_ok e0).2.1] at k
      exact ⟨h1, h0, (allowed_iff h h0).mp ⟨_, e0⟩, k⟩
    · rintro ⟨h1, h0, h2, h3⟩
      obtain ⟨t0, e0⟩ := (allowed_iff h h0).mpr h2
      obtain ⟨t', e⟩ := (spend_iff (spendAllowance_keeps h e0) h0).mpr (by rw [(Token.spendAllowance_ok e0).2.1]; exact h3)
      exact ⟨t', (), h1, (), h0, t0, e0, e⟩

/-- **C119** From the constructor on, after any history of calls, a token accepts exactly the calls
that carry the right signature, a non-negative amount, funds, an unexpired allowance where one is
used, and room on the receiving balance.  Nobody can make it refuse such a call. -/
theorem C119_accepts_iff {admin : Addr} {dec : Nat} {t : Token} (h0 : Token.construct admin dec = .ok t)
    (ks : List (Ctx × TokenOp)) (hk : ∀ k ∈ ks, Typed k.2) (c : Ctx) (op : TokenOp) :
    (∃ t', (tokenRun t ks).call c op = .ok t') ↔ Acceptable c (tokenRun t ks) op := by
  refine call_iff (token_run_keeps ks hk ?_) op
  simp only [Token.construct, bind_ok, req_ok, ok_inj] at h0
  obtain ⟨_, _, rfl⟩ := h0
  exact ⟨fun _ => ⟨le_refl _, I128_MAX_nonneg⟩, fun _ _ => ⟨le_refl _, I128_MAX_nonneg⟩⟩

/-- **C119** The constructor accepts exactly up to 18 decimals. -/
theorem C119_construct_iff (admin : Addr) (dec : Nat) : (∃ t, Token.construct admin dec = .ok t) ↔ dec ≤ 18 := by
  simp only [Token.construct, bind_ok, req_ok, ok_inj]
  exact ⟨fun ⟨_, _, h, _⟩ => h, fun h => ⟨_, (), h, rfl⟩⟩

/-- **C119** A holder can always give away or burn all they have: as long as the receiver's balance and
theirs together fit the number type, nothing anybody did before prevents it. -/
theorem C119_holder_can_always_pay {admin : Addr} {dec : Nat} {t : Token} (h0 : Token.construct admin dec = .ok t)
    (ks : List (Ctx × TokenOp)) (hk : ∀ k ∈ ks, Typed k.2) (c : Ctx) {a : Addr} (ha : c.auth a = true) (b : Addr)
    (hfit : (tokenRun t ks).bal b + (tokenRun t ks).bal a ≤ I128_MAX) :
    (∃ t', (tokenRun t ks).call c (.transfer a b ((tokenRun t ks).bal a)) = .ok t') ∧
    (∃ t', (tokenRun t ks).call c (.burn a ((tokenRun t ks).bal a)) = .ok t') := by
  have hb := ((C22_never_negative_never_overflow h0 ks hk).1 a).1
  exact ⟨(C119_accepts_iff h0 ks hk c _).mpr ⟨ha, hb, le_refl _, .inr hfit⟩,
    (C119_accepts_iff h0 ks hk c _).mpr ⟨ha, hb, le_refl _⟩⟩

/-- a history with balances and an allowance, and calls on both sides of the bounds -/
def exTokHist : List (Ctx × TokenOp) := [(exCtx, .mint 1 500), (exCtx, .approve 1 5 30 50), (exCtx, .transfer 1 2 200)]

example : ∃ t, Token.construct 9 7 = .ok t ∧ (tokenRun t exTokHist).bal 1 = 300 ∧ (tokenRun t exTokHist).allowanceOf exCtx 1 5 = 30 ∧
    (∃ t', (tokenRun t exTokHist).call exCtx (.transferFrom 5 1 2 30) = .ok t') ∧
    ((tokenRun t exTokHist).call exCtx (.transferFrom 5 1 2 31)).toOption.isSome = false ∧
    ((tokenRun t exTokHist).call { exCtx with seq := 51 } (.transferFrom 5 1 2 30)).toOption.isSome = false ∧
    ((tokenRun t exTokHist).call exCtx (.transfer 1 1 300)).toOption.isSome = true ∧
    ((tokenRun t exTokHist).call exCtx (.transfer 1 1 301)).toOption.isSome = false :=
  ⟨_, rfl, rfl, rfl, ⟨_, rfl⟩, rfl, rfl, rfl, rfl⟩
example : ∀ k ∈ exTokHist, Typed k.2 := by
  intro k hk
  simp only [exTokHist, List.mem_cons, List.not_mem_nil, or_false] at hk
  rcases hk with rfl | rfl | rfl <;> simp only [Typed] <;> decide

end Phoenix.Props
