import Verif.Spec.Ttl
import Verif.Lemmas.Token
/-! The token with lifetimes (helpers only). -/
namespace Phoenix.Ttl
open Phoenix Phoenix.Ttl.Spec Phoenix.Spec

theorem extended_ge {n : Net} (hn : NetOK n) {seq thr bmp live : Nat} (h1 : thr ≤ bmp) (h2 : bmp ≤ 30 * DAY) :
    seq + thr ≤ extended n seq thr bmp live ∧ live ≤ extended n seq thr bmp live := by
  have := hn.max
  unfold extended
  simp only
  split <;> omega

/-- one balance is rewritten -/
structure Eff (seq : Nat) (a : Addr) (v : Int) (t t' : TTok) : Prop where
  bal : ∀ b, balOf t' b = if b = a then v else balOf t b
  allow : t'.allow = t.allow
  admin : t'.admin = t.admin
  decimals : t'.decimals = t.decimals
  inst : t'.inst = t.inst
  others : ∀ b, b ≠ a → t'.bal b = t.bal b
  lives : ∃ y, t'.bal a = some y ∧ seq + BALANCE_THRESHOLD ≤ y.live
  grows : ∀ x, t.bal a = some x → ∃ y, t'.bal a = some y ∧ x.live ≤ y.live

theorem rw_ok {n : Net} (hn : NetOK n) {seq : Nat} {t t1 t2 : TTok} {a : Addr} {b v : Int}
    (h1 : readBal n seq t a = .ok (b, t1)) (h2 : writeBal n seq t1 a v = .ok t2) :
    b = balOf t a ∧ Eff seq a v t t2 := by
  unfold readBal at h1
  cases hb : t.bal a with
  | none =>
    simp only [hb, ok_inj, Prod.mk.injEq] at h1
    obtain ⟨rfl, rfl⟩ := h1
    unfold writeBal at h2
    simp only [hb, ok_inj] at h2
    subst h2
    refine ⟨by simp [balOf, hb], ⟨fun c => ?_, rfl, rfl, rfl, rfl, fun c hc => ?_, ?_, fun x hx => by rw [hb] at hx; cases hx⟩⟩
    · unfold balOf; simp only [upd_apply]; by_cases hc : c = a <;> simp only [hc, if_true, if_false]
    · simp [upd_ne _ _ hc]
    · exact ⟨_, by simp only [upd_same]; rfl, (extended_ge hn (show BALANCE_THRESHOLD ≤ BALANCE_BUMP by decide) (le_refl _)).1⟩
  | some x =>
    simp only [hb] at h1
    split at h1
    · simp at h1
    · simp only [ok_inj, Prod.mk.injEq] at h1
      obtain ⟨rfl, rfl⟩ := h1
      unfold writeBal at h2
      simp only [upd_same] at h2
      split at h2
      · simp at h2
      · simp only [ok_inj] at h2
        subst h2
        have e1 := extended_ge hn (seq := seq) (live := x.live) (show BALANCE_THRESHOLD ≤ BALANCE_BUMP by decide) (le_refl _)
        have e2 := extended_ge hn (seq := seq) (live := extended n seq BALANCE_THRESHOLD BALANCE_BUMP x.live) (show BALANCE_THRESHOLD ≤ BALANCE_BUMP by decide) (le_refl _)
        refine ⟨by simp [balOf, hb], ⟨fun c => ?_, rfl, rfl, rfl, rfl, fun c hc => ?_, ?_, fun y hy => ?_⟩⟩
        · unfold balOf; simp only [upd_apply]; by_cases hc : c = a <;> simp only [hc, if_true, if_false]
        · simp [upd_ne _ _ hc]
        · exact ⟨_, by simp only [upd_same]; rfl, e2.1⟩
        · rw [hb] at hy
          cases hy
          exact ⟨_, by simp only [upd_same]; rfl, le_trans e1.2 e2.2⟩

theorem rw_works {n : Net} {seq : Nat} {t : TTok} {a : Addr} (h : ¬ Archived t seq a) :
    ∃ t1, readBal n seq t a = .ok (balOf t a, t1) ∧ ∀ v, ∃ t2, writeBal n seq t1 a v = .ok t2 := by
  unfold readBal balOf
  cases hb : t.bal a with
  | none => exact ⟨t, rfl, fun v => ⟨_, by unfold writeBal; simp only [hb]; rfl⟩⟩
  | some x =>
    have hx : ¬ x.live < seq := fun h' => h ⟨x, hb, h'⟩
    simp only [hx, if_false]
    refine ⟨_, rfl, fun v => ?_⟩
    unfold writeBal
    simp only [upd_same]
    have : ¬ extended n seq BALANCE_THRESHOLD BALANCE_BUMP x.live < seq := by
      unfold extended; simp only; split <;> omega
    simp only [this, if_false]
    exact ⟨_, rfl⟩

theorem spend_ok {n : Net} (hn : NetOK n) {seq : Nat} {t t' : TTok} {a : Addr} {x : Int} (h : spend n seq t a x = .ok t') :
    x ≤ balOf t a ∧ InI128 (balOf t a - x) ∧ Eff seq a (balOf t a - x) t t' := by
  unfold spend at h
  simp only [bind_ok, req_ok, subI_ok] at h
  obtain ⟨⟨b, t1⟩, h1, _, h2, v, ⟨h3, rfl⟩, h4⟩ := h
  obtain ⟨rfl, e⟩ := rw_ok hn h1 h4
  exact ⟨h2, h3, e⟩

theorem receive_ok {n : Net} (hn : NetOK n) {seq : Nat} {t t' : TTok} {a : Addr} {x : Int} (h : receive n seq t a x = .ok t') :
    InI128 (balOf t a + x) ∧ Eff seq a (balOf t a + x) t t' := by
  unfold receive at h
  simp only [bind_ok, addI_ok] at h
  obtain ⟨⟨b, t1⟩, h1, v, ⟨h3, rfl⟩, h4⟩ := h
  obtain ⟨rfl, e⟩ := rw_ok hn h1 h4
  exact ⟨h3, e⟩

theorem spend_works {n : Net} {seq : Nat} {t : TTok} {a : Addr} {x : Int} (h : ¬ Archived t seq a)
    (h1 : x ≤ balOf t a) (h2 : InI128 (balOf t a - x)) : ∃ t', spend n seq t a x = .ok t' := by
  obtain ⟨t1, e1, e2⟩ := rw_works (n := n) h
  obtain ⟨t2, e2⟩ := e2 (balOf t a - x)
  refine ⟨t2, ?_⟩
  unfold spend
  simp only [bind_ok, req_ok, subI_ok]
  exact ⟨_, e1, (), h1, _, ⟨h2, rfl⟩, e2⟩

theorem receive_works {n : Net} {seq : Nat} {t : TTok} {a : Addr} {x : Int} (h : ¬ Archived t seq a)
    (h2 : InI128 (balOf t a + x)) : ∃ t', receive n seq t a x = .ok t' := by
  obtain ⟨t1, e1, e2⟩ := rw_works (n := n) h
  obtain ⟨t2, e2⟩ := e2 (balOf t a + x)
  refine ⟨t2, ?_⟩
  unfold receive
  simp only [bind_ok, addI_ok]
  exact ⟨_, e1, _, ⟨h2, rfl⟩, e2⟩

/-- an allowance entry with and without lifetime -/
def AR (n : Net) (seq : Nat) (e : Option (Live Allowance)) (al : Allowance) : Prop :=
  0 ≤ al.amount ∧
  ((0 < al.amount ∧ seq ≤ al.exp ∧ al.exp < seq + n.maxTtl ∧ ∃ live, e = some ⟨al, live⟩ ∧ al.exp ≤ live) ∨
   ((al.amount = 0 ∨ al.exp < seq) ∧ ∀ x, e = some x → x.val.amount = 0 ∨ x.val.exp < seq ∨ x.live < seq))

theorem AR.mono {n : Net} {seq seq' : Nat} {e : Option (Live Allowance)} {al : Allowance} (h : AR n seq e al) (hs : seq ≤ seq') :
    AR n seq' e al := by
  obtain ⟨h0, h⟩ := h
  refine ⟨h0, ?_⟩
  rcases h with ⟨h1, h2, h3, live, rfl, h4⟩ | ⟨h1, h2⟩
  · by_cases hx : seq' ≤ al.exp
    · exact .inl ⟨h1, hx, by omega, live, rfl, h4⟩
    · refine .inr ⟨.inr (by omega), fun x hx' => ?_⟩
      cases hx'
      exact .inr (.inl (by simp only; omega))
  · refine .inr ⟨by omega, fun x hx => ?_⟩
    have := h2 x hx
    omega

/-- with and without lifetimes -/
structure Rel (n : Net) (seq : Nat) (t : TTok) (b : Token) : Prop where
  admin : t.admin = b.admin
  decimals : t.decimals = b.decimals
  bal : ∀ a, balOf t a = b.bal a
  allow : ∀ o s, AR n seq (t.allow o s) (b.allow o s)

theorem Rel.mono {n : Net} {seq seq' : Nat} {t : TTok} {b : Token} (h : Rel n seq t b) (hs : seq ≤ seq') : Rel n seq' t b :=
  ⟨h.admin, h.decimals, h.bal, fun o s => (h.allow o s).mono hs⟩

theorem Rel.bump {n : Net} {seq : Nat} {t : TTok} {b : Token} (h : Rel n seq t b) : Rel n seq (bumpInst n seq t) b :=
  ⟨h.admin, h.decimals, h.bal, h.allow⟩

theorem Rel.read {n : Net} {seq : Nat} {t : TTok} {b : Token} (h : Rel n seq t b) (o s : Addr) :
    (readAllowance seq t o s).amount = (b.readAllowance seq o s).amount ∧
    (0 < (readAllowance seq t o s).amount → (readAllowance seq t o s).exp = (b.readAllowance seq o s).exp ∧
      (readAllowance seq t o s).exp - seq < n.maxTtl ∧ seq ≤ (readAllowance seq t o s).exp) := by
  obtain ⟨h0, h⟩ := h.allow o s
  unfold readAllowance Token.readAllowance visible
  simp only
  rcases h with ⟨h1, h2, h3, live, he, h4⟩ | ⟨h1, h2⟩
  · have k1 : ¬ live < seq := by omega
    have k2 : ¬ (b.allow o s).exp < seq := by omega
    simp only [he, k1, k2, if_false]
    exact ⟨trivial, fun _ => ⟨trivial, by omega, h2⟩⟩
  · have hb : (if (b.allow o s).exp < seq then (⟨0, (b.allow o s).exp⟩ : Allowance) else b.allow o s).amount = 0 := by
      split
      · rfl
      · omega
    rw [hb]
    cases he : t.allow o s with
    | none => simp
    | some x =>
      have := h2 x he
      by_cases k : x.live < seq
      · simp [k]
      · by_cases k2 : x.val.exp < seq
        · simp [k, k2]
        · have k3 : x.val.amount = 0 := by omega
          simp [k, k2, k3]

theorem writeAllowance_rel {n : Net} {seq : Nat} {t t' : TTok} {b : Token} {o s : Addr} {x : Int} {e : Nat} (hr : Rel n seq t b)
    (hx : 0 ≤ x) (h : writeAllowance n seq t o s x e = .ok t') :
    ∃ b', b.writeAllowance seq o s x e = .ok b' ∧ Rel n seq t' b' ∧ t'.bal = t.bal ∧ t'.inst = t.inst := by
  unfold writeAllowance at h
  simp only [bind_ok, req_ok] at h
  obtain ⟨_, h1, h⟩ := h
  refine ⟨_, by rw [Token.writeAllowance_ok]; exact ⟨h1, rfl⟩, ?_⟩
  have key : ∀ en : Live Allowance, AR n seq (some en) ⟨x, e⟩ →
      Rel n seq { t with allow := upd t.allow o (upd (t.allow o) s (some en)) } { b with allow := upd b.allow o (upd (b.allow o) s ⟨x, e⟩) } := by
    intro en hen
    refine ⟨hr.admin, hr.decimals, hr.bal, fun o' s' => ?_⟩
    simp only [upd_apply]
    split
    · simp only [upd_apply]
      split
      · exact hen
      · subst_vars; exact hr.allow _ _
    · exact hr.allow _ _
  have hv : (setTemp n seq (t.allow o s) ⟨x, e⟩).val = ⟨x, e⟩ := by
    unfold setTemp; split <;> rfl
  generalize hE : setTemp n seq (t.allow o s) ⟨x, e⟩ = en at h hv
  obtain ⟨v, l⟩ := en
  simp only at hv
  subst hv
  split at h
  · rename_i hpos
    simp only [bind_ok, ok_inj, extendTemp, req_ok] at h
    obtain ⟨e', ⟨_, h2, rfl⟩, rfl⟩ := h
    refine ⟨key _ ?_, rfl, rfl⟩
    have : seq ≤ e := by
      by_contra hc; exact h1 ⟨hpos, by omega⟩
    refine ⟨hx, .inl ⟨hpos, this, by simp only; omega, ?_⟩⟩
    simp only
    split
    · exact ⟨_, rfl, by omega⟩
    · exact ⟨_, rfl, by omega⟩
  · rename_i hpos
    rw [ok_inj] at h
    subst h
    have h0 : x = 0 := by omega
    subst h0
    exact ⟨key _ ⟨le_refl _, .inr ⟨.inl rfl, fun y hy => by cases hy; exact .inl rfl⟩⟩, rfl, rfl⟩

theorem writeAllowance_works {n : Net} {seq : Nat} {t : TTok} {o s : Addr} {x : Int} {e : Nat} (h1 : ¬ (0 < x ∧ e < seq))
    (h2 : 0 < x → e - seq < n.maxTtl) : ∃ t', writeAllowance n seq t o s x e = .ok t' := by
  unfold writeAllowance
  simp only [bind_ok, req_ok]
  by_cases hpos : 0 < x
  · simp only [hpos, if_true, bind_ok, extendTemp, req_ok, ok_inj]
    exact ⟨_, (), fun h => h1 ⟨hpos, h.2⟩, _, ⟨(), h2 hpos, rfl⟩, rfl⟩
  · simp only [hpos, if_false, ok_inj]
    exact ⟨_, (), by simp, rfl⟩

theorem spendAllowance_rel {n : Net} {seq : Nat} {t t' : TTok} {b : Token} {o s : Addr} {x : Int} (hr : Rel n seq t b)
    (h : spendAllowance n seq t o s x = .ok t') :
    ∃ b', b.spendAllowance seq o s x = .ok b' ∧ Rel n seq t' b' ∧ t'.bal = t.bal ∧ t'.inst = t.inst := by
  obtain ⟨r1, r2⟩ := hr.read o s
  unfold spendAllowance at h
  simp only [bind_ok, req_ok] at h
  obtain ⟨_, h1, h⟩ := h
  unfold Token.spendAllowance
  simp only [bind_ok, req_ok]
  by_cases hx : 0 < x
  · simp only [hx, if_true, bind_ok, subI_ok] at h ⊢
    obtain ⟨_, ⟨h2, rfl⟩, h3⟩ := h
    obtain ⟨b', k1, k2, k3⟩ := writeAllowance_rel hr (by omega) h3
    rw [(r2 (by omega)).1, r1] at k1
    exact ⟨b', ⟨(), by rw [← r1]; exact h1, _, ⟨by rw [← r1]; exact h2, rfl⟩, k1⟩, k2, k3⟩
  · simp only [hx, if_false, ok_inj] at h ⊢
    subst h
    exact ⟨b, ⟨(), by rw [← r1]; exact h1, rfl⟩, hr, rfl, rfl⟩

theorem spendAllowance_works {n : Net} {seq : Nat} {t : TTok} {b b' : Token} {o s : Addr} {x : Int} (hr : Rel n seq t b)
    (h : b.spendAllowance seq o s x = .ok b') : ∃ t', spendAllowance n seq t o s x = .ok t' := by
  obtain ⟨r1, r2⟩ := hr.read o s
  unfold Token.spendAllowance at h
  simp only [bind_ok, req_ok] at h
  obtain ⟨_, h1, h⟩ := h
  unfold spendAllowance
  simp only [bind_ok, req_ok]
  by_cases hx : 0 < x
  · simp only [hx, if_true, bind_ok, subI_ok] at h ⊢
    obtain ⟨_, ⟨h2, rfl⟩, h3⟩ := h
    have hp : 0 < (readAllowance seq t o s).amount := by rw [r1]; omega
    obtain ⟨q1, q2, q3⟩ := r2 hp
    obtain ⟨t', ht'⟩ := writeAllowance_works (n := n) (seq := seq) (t := t) (o := o) (s := s)
      (x := (readAllowance seq t o s).amount - x) (e := (readAllowance seq t o s).exp) (by omega) (fun _ => q2)
    exact ⟨t', (), by rw [r1]; exact h1, _, ⟨by rw [r1]; exact h2, rfl⟩, ht'⟩
  · simp only [hx, if_false, ok_inj] at h ⊢
    exact ⟨t, (), by rw [r1]; exact h1, rfl⟩

theorem spend_rel {n : Net} (hn : NetOK n) {seq : Nat} {t t' : TTok} {b : Token} {a : Addr} {x : Int} (hr : Rel n seq t b)
    (h : spend n seq t a x = .ok t') : ∃ b', b.spend a x = .ok b' ∧ Rel n seq t' b' := by
  obtain ⟨h1, h2, e⟩ := spend_ok hn h
  rw [hr.bal] at h1 h2 e
  refine ⟨{ b with bal := upd b.bal a (b.bal a - x) }, by rw [Token.spend_ok]; exact ⟨h1, h2, rfl⟩, ⟨e.admin.trans hr.admin, e.decimals.trans hr.decimals, fun c => ?_, ?_⟩⟩
  · rw [e.bal c]; simp only [upd_apply]; split
    · rfl
    · exact hr.bal c
  · rw [e.allow]; exact hr.allow

theorem receive_rel {n : Net} (hn : NetOK n) {seq : Nat} {t t' : TTok} {b : Token} {a : Addr} {x : Int} (hr : Rel n seq t b)
    (h : receive n seq t a x = .ok t') : ∃ b', b.receive a x = .ok b' ∧ Rel n seq t' b' := by
  obtain ⟨h2, e⟩ := receive_ok hn h
  rw [hr.bal] at h2 e
  refine ⟨{ b with bal := upd b.bal a (b.bal a + x) }, by rw [Token.receive_ok]; exact ⟨h2, rfl⟩, ⟨e.admin.trans hr.admin, e.decimals.trans hr.decimals, fun c => ?_, ?_⟩⟩
  · rw [e.bal c]; simp only [upd_apply]; split
    · rfl
    · exact hr.bal c
  · rw [e.allow]; exact hr.allow

/-- a successful call with lifetimes is a successful call without -/
theorem call_rel {n : Net} (hn : NetOK n) {c : Ctx} {t t' : TTok} {b : Token} {op : TokenOp} (hr : Rel n c.seq t b)
    (h : callLive n c t op = .ok t') : ∃ b', b.call c op = .ok b' ∧ Rel n c.seq t' b' := by
  have hb := hr.bump
  cases op with
  | mint d x =>
    simp only [callLive, bind_ok, requireAuth_ok] at h
    obtain ⟨_, h1, _, h2, h3⟩ := h
    obtain ⟨b', k1, k2⟩ := receive_rel hn hb h3
    refine ⟨b', ?_, k2⟩
    simp only [Token.call, Token.mint, bind_ok, requireAuth_ok]
    exact ⟨_, h1, (), by rw [← hr.admin]; exact h2, k1⟩
  | setAdmin a =>
    simp only [callLive, bind_ok, requireAuth_ok, ok_inj] at h
    obtain ⟨_, h2, rfl⟩ := h
    refine ⟨{ b with admin := a }, ?_, ⟨rfl, hr.decimals, hr.bal, hr.allow⟩⟩
    simp only [Token.call, Token.setAdmin, bind_ok, requireAuth_ok, ok_inj]
    exact ⟨(), by rw [← hr.admin]; exact h2, trivial⟩
  | approve o s x e =>
    simp only [callLive, bind_ok, requireAuth_ok] at h
    obtain ⟨_, h1, _, h2, h3⟩ := h
    have hx : 0 ≤ x := by simpa [Token.checkNonneg, req_ok] using h2
    obtain ⟨b', k1, k2, -⟩ := writeAllowance_rel hb hx h3
    refine ⟨b', ?_, k2⟩
    simp only [Token.call, Token.approve, bind_ok, requireAuth_ok]
    exact ⟨(), h1, _, h2, k1⟩
  | transfer s d x =>
    simp only [callLive, bind_ok, requireAuth_ok] at h
    obtain ⟨_, h1, _, h2, t1, h3, h4⟩ := h
    obtain ⟨b1, k1, k2⟩ := spend_rel hn hb h3
    obtain ⟨b2, k3, k4⟩ := receive_rel hn k2 h4
    refine ⟨b2, ?_, k4⟩
    simp only [Token.call, Token.transfer, bind_ok, requireAuth_ok]
    exact ⟨(), h1, _, h2, b1, k1, k3⟩
  | transferFrom sp s d x =>
    simp only [callLive, bind_ok, requireAuth_ok] at h
    obtain ⟨_, h1, _, h2, t0, h0, t1, h3, h4⟩ := h
    obtain ⟨b0, k5, k6, -⟩ := spendAllowance_rel hb h0
    obtain ⟨b1, k1, k2⟩ := spend_rel hn k6 h3
    obtain ⟨b2, k3, k4⟩ := receive_rel hn k2 h4
    refine ⟨b2, ?_, k4⟩
    simp only [Token.call, Token.transferFrom, bind_ok, requireAuth_ok]
    exact ⟨(), h1, _, h2, b0, k5, b1, k1, k3⟩
  | burn s x =>
    simp only [callLive, bind_ok, requireAuth_ok] at h
    obtain ⟨_, h1, _, h2, h3⟩ := h
    obtain ⟨b1, k1, k2⟩ := spend_rel hn hb h3
    refine ⟨b1, ?_, k2⟩
    simp only [Token.call, Token.burn, bind_ok, requireAuth_ok]
    exact ⟨(), h1, _, h2, k1⟩
  | burnFrom sp s x =>
    simp only [callLive, bind_ok, requireAuth_ok] at h
    obtain ⟨_, h1, _, h2, t0, h0, h3⟩ := h
    obtain ⟨b0, k5, k6, -⟩ := spendAllowance_rel hb h0
    obtain ⟨b1, k1, k2⟩ := spend_rel hn k6 h3
    refine ⟨b1, ?_, k2⟩
    simp only [Token.call, Token.burnFrom, bind_ok, requireAuth_ok]
    exact ⟨(), h1, _, h2, b0, k5, k1⟩

theorem archived_of_eff {seq : Nat} {a d : Addr} {v : Int} {t t' : TTok} (e : Eff seq a v t t') (h : Archived t' seq d) : Archived t seq d := by
  obtain ⟨x, hx, hl⟩ := h
  by_cases hd : d = a
  · subst hd
    obtain ⟨y, hy, hyl⟩ := e.lives
    rw [hx] at hy
    cases hy
    omega
  · rw [e.others d hd] at hx
    exact ⟨x, hx, hl⟩

theorem transfer_works {n : Net} (hn : NetOK n) {seq : Nat} {t : TTok} {b b1 b2 : Token} {s d : Addr} {x : Int} (hr : Rel n seq t b)
    (h1 : b.spend s x = .ok b1) (h2 : b1.receive d x = .ok b2) (hs : ¬ Archived t seq s) (hd : ¬ Archived t seq d) :
    ∃ t1 t2, spend n seq t s x = .ok t1 ∧ receive n seq t1 d x = .ok t2 := by
  have h1' := h1
  rw [Token.spend_ok] at h1
  rw [Token.receive_ok] at h2
  obtain ⟨t1, e1⟩ := spend_works (n := n) (x := x) hs (by rw [hr.bal]; exact h1.1) (by rw [hr.bal]; exact h1.2.1)
  obtain ⟨b1', k1, k2⟩ := spend_rel hn hr e1
  rw [h1'] at k1
  cases k1
  obtain ⟨t2, e2⟩ := receive_works (n := n) (t := t1) (seq := seq) (a := d) (x := x)
    (fun h => hd (archived_of_eff (spend_ok hn e1).2.2 h)) (by rw [k2.bal]; exact h2.1)
  exact ⟨t1, t2, e1, e2⟩

theorem spend_works' {n : Net} {seq : Nat} {t : TTok} {b b1 : Token} {s : Addr} {x : Int} (hr : Rel n seq t b)
    (h1 : b.spend s x = .ok b1) (hs : ¬ Archived t seq s) : ∃ t1, spend n seq t s x = .ok t1 := by
  rw [Token.spend_ok] at h1
  exact spend_works (n := n) hs (by rw [hr.bal]; exact h1.1) (by rw [hr.bal]; exact h1.2.1)

theorem archived_congr {t t' : TTok} (h : t'.bal = t.bal) {seq : Nat} {a : Addr} : Archived t' seq a ↔ Archived t seq a := by
  unfold Archived; rw [h]

/-- a call that succeeds without lifetimes succeeds with lifetimes when what it touches is live -/
theorem call_works {n : Net} (hn : NetOK n) {c : Ctx} {t : TTok} {b b' : Token} {op : TokenOp} (hr : Rel n c.seq t b)
    (h : b.call c op = .ok b') (ha : ∀ a ∈ parties op, ¬ Archived t c.seq a)
    (hx : ∀ o s x e, op = .approve o s x e → 0 < x → e - c.seq < n.maxTtl) : ∃ t', callLive n c t op = .ok t' := by
  have hb := hr.bump
  have ab : ∀ {a}, ¬ Archived t c.seq a → ¬ Archived (bumpInst n c.seq t) c.seq a := fun h => h
  cases op with
  | mint d x =>
    simp only [Token.call, Token.mint, bind_ok, requireAuth_ok] at h
    obtain ⟨_, h1, _, h2, h3⟩ := h
    rw [Token.receive_ok] at h3
    obtain ⟨t', e⟩ := receive_works (n := n) (ab (ha d (by simp [parties]))) (x := x) (by rw [hb.bal]; exact h3.1)
    refine ⟨t', ?_⟩
    simp only [callLive, bind_ok, requireAuth_ok]
    exact ⟨_, h1, (), by rw [hr.admin]; exact h2, e⟩
  | setAdmin a =>
    simp only [Token.call, Token.setAdmin, bind_ok, requireAuth_ok] at h
    obtain ⟨_, h2, -⟩ := h
    simp only [callLive, bind_ok, requireAuth_ok, ok_inj]
    exact ⟨_, (), by rw [hr.admin]; exact h2, rfl⟩
  | approve o s x e =>
    simp only [Token.call, Token.approve, bind_ok, requireAuth_ok] at h
    obtain ⟨_, h1, _, h2, h3⟩ := h
    rw [Token.writeAllowance_ok] at h3
    obtain ⟨t', ht⟩ := writeAllowance_works (n := n) (seq := c.seq) (t := bumpInst n c.seq t) (o := o) (s := s) h3.1 (hx o s x e rfl)
    refine ⟨t', ?_⟩
    simp only [callLive, bind_ok, requireAuth_ok]
    exact ⟨(), h1, _, h2, ht⟩
  | transfer s d x =>
    simp only [Token.call, Token.transfer, bind_ok, requireAuth_ok] at h
    obtain ⟨_, h1, _, h2, b1, h3, h4⟩ := h
    obtain ⟨t1, t2, e1, e2⟩ := transfer_works hn hb h3 h4 (ab (ha s (by simp [parties]))) (ab (ha d (by simp [parties])))
    refine ⟨t2, ?_⟩
    simp only [callLive, bind_ok, requireAuth_ok]
    exact ⟨(), h1, _, h2, t1, e1, e2⟩
  | transferFrom sp s d x =>
    simp only [Token.call, Token.transferFrom, bind_ok, requireAuth_ok] at h
    obtain ⟨_, h1, _, h2, b0, h0, b1, h3, h4⟩ := h
    obtain ⟨t0, e0⟩ := spendAllowance_works hb h0
    obtain ⟨b0', k5, k6, k7, -⟩ := spendAllowance_rel hb e0
    rw [h0] at k5
    cases k5
    obtain ⟨t1, t2, e1, e2⟩ := transfer_works hn k6 h3 h4
      (by rw [archived_congr k7]; exact ab (ha s (by simp [parties])))
      (by rw [archived_congr k7]; exact ab (ha d (by simp [parties])))
    refine ⟨t2, ?_⟩
    simp only [callLive, bind_ok, requireAuth_ok]
    exact ⟨(), h1, _, h2, t0, e0, t1, e1, e2⟩
  | burn s x =>
    simp only [Token.call, Token.burn, bind_ok, requireAuth_ok] at h
    obtain ⟨_, h1, _, h2, h3⟩ := h
    obtain ⟨t1, e1⟩ := spend_works' hb h3 (ab (ha s (by simp [parties])))
    refine ⟨t1, ?_⟩
    simp only [callLive, bind_ok, requireAuth_ok]
    exact ⟨(), h1, _, h2, e1⟩
  | burnFrom sp s x =>
    simp only [Token.call, Token.burnFrom, bind_ok, requireAuth_ok] at h
    obtain ⟨_, h1, _, h2, b0, h0, h3⟩ := h
    obtain ⟨t0, e0⟩ := spendAllowance_works hb h0
    obtain ⟨b0', k5, k6, k7, -⟩ := spendAllowance_rel hb e0
    rw [h0] at k5
    cases k5
    obtain ⟨t1, e1⟩ := spend_works' k6 h3 (by rw [archived_congr k7]; exact ab (ha s (by simp [parties])))
    refine ⟨t1, ?_⟩
    simp only [callLive, bind_ok, requireAuth_ok]
    exact ⟨(), h1, _, h2, t0, e0, e1⟩

/-- the other transactions change lifetimes only -/
theorem upkeep_rel {n : Net} {c : Ctx} {t t' : TTok} {b : Token} {k : TOp} (hr : Rel n c.seq t b) (hk : ∀ op, k ≠ .call op)
    (h : step n c t k = .ok t') : Rel n c.seq t' b := by
  have hb := hr.bump
  cases k with
  | call op => exact absurd rfl (hk op)
  | balance a =>
    simp only [step, bind_ok, ok_inj] at h
    obtain ⟨_, _, ⟨v, t1⟩, h1, rfl⟩ := h
    unfold readBal at h1
    cases hba : (bumpInst n c.seq t).bal a with
    | none =>
      simp only [hba, ok_inj, Prod.mk.injEq] at h1
      obtain ⟨-, rfl⟩ := h1
      exact hb
    | some x =>
      simp only [hba] at h1
      split at h1
      · simp at h1
      · simp only [ok_inj, Prod.mk.injEq] at h1
        obtain ⟨-, rfl⟩ := h1
        refine ⟨hb.admin, hb.decimals, fun d => ?_, hb.allow⟩
        rw [← hb.bal d]
        unfold balOf
        simp only [upd_apply]
        by_cases hd : d = a
        · subst hd; simp only [if_true, hba]
        · simp only [hd, if_false]
  | allowance o s =>
    simp only [step, bind_ok, ok_inj] at h
    obtain ⟨_, _, rfl⟩ := h
    exact hb
  | restoreBal a =>
    simp only [step] at h
    cases hba : t.bal a with
    | none => simp only [hba, ok_inj] at h; subst h; exact hr
    | some x =>
      simp only [hba, ok_inj] at h
      subst h
      split
      · refine ⟨hr.admin, hr.decimals, fun d => ?_, hr.allow⟩
        rw [← hr.bal d]
        unfold balOf
        simp only [upd_apply]
        by_cases hd : d = a
        · subst hd; simp only [if_true, hba]
        · simp only [hd, if_false]
      · exact hr
  | restoreInst =>
    simp only [step, ok_inj] at h
    subst h
    split
    · exact ⟨hr.admin, hr.decimals, hr.bal, hr.allow⟩
    · exact hr

theorem exec_rel {n : Net} (hn : NetOK n) {seq : Nat} {t : TTok} {b : Token} {k : Ctx × TOp} (hr : Rel n seq t b) (hs : seq ≤ k.1.seq) :
    Rel n k.1.seq (exec n t k) (tokenRun b (done n t k)) ∧ AllSucceed b (done n t k) := by
  have hr' := hr.mono hs
  unfold exec done
  obtain ⟨c, op⟩ := k
  simp only at *
  cases hst : step n c t op with
  | error e => cases op <;> exact ⟨hr', trivial⟩
  | ok t' =>
    cases op with
    | call op =>
      simp only [step, bind_ok, req_ok] at hst
      obtain ⟨_, _, hc⟩ := hst
      obtain ⟨b', k1, k2⟩ := call_rel hn hr' hc
      simp only [tokenRun, List.foldl, AllSucceed, tokenExec, k1, and_true]
      exact ⟨k2, b', rfl⟩
    | balance a => exact ⟨upkeep_rel hr' (by simp) hst, trivial⟩
    | allowance a s => exact ⟨upkeep_rel hr' (by simp) hst, trivial⟩
    | restoreBal a => exact ⟨upkeep_rel hr' (by simp) hst, trivial⟩
    | restoreInst => exact ⟨upkeep_rel hr' (by simp) hst, trivial⟩

theorem allSucceed_append {b : Token} {xs ys : List (Ctx × TokenOp)} (h1 : AllSucceed b xs) (h2 : AllSucceed (tokenRun b xs) ys) :
    AllSucceed b (xs ++ ys) := by
  induction xs generalizing b with
  | nil => exact h2
  | cons x xs ih => exact ⟨h1.1, ih h1.2 h2⟩

theorem run_rel {n : Net} (hn : NetOK n) {seq : Nat} {t : TTok} {b : Token} {ks : List (Ctx × TOp)} (hr : Rel n seq t b)
    (ho : Ordered seq ks) : Rel n (lastSeq seq ks) (run n t ks) (tokenRun b (effective n t ks)) ∧ AllSucceed b (effective n t ks) := by
  induction ks generalizing seq t b with
  | nil => exact ⟨hr, trivial⟩
  | cons k ks ih =>
    obtain ⟨h1, h2⟩ := exec_rel hn hr ho.1
    obtain ⟨h3, h4⟩ := ih h1 ho.2
    refine ⟨?_, allSucceed_append h2 h4⟩
    show Rel n (lastSeq k.1.seq ks) (run n (exec n t k) ks) (tokenRun b (done n t k ++ effective n (exec n t k) ks))
    have : tokenRun b (done n t k ++ effective n (exec n t k) ks) = tokenRun (tokenRun b (done n t k)) (effective n (exec n t k) ks) := by
      unfold tokenRun; rw [List.foldl_append]
    rw [this]
    exact h3

theorem construct_rel {n : Net} {seq : Nat} {admin : Addr} {d : Nat} {t : TTok} {b : Token} (h : construct n seq admin d = .ok t)
    (hb : Token.construct admin d = .ok b) : Rel n seq t b := by
  unfold construct at h
  unfold Token.construct at hb
  simp only [bind_ok, ok_inj] at h hb
  obtain ⟨_, _, rfl⟩ := h
  obtain ⟨_, _, rfl⟩ := hb
  exact ⟨rfl, rfl, fun _ => rfl, fun _ _ => ⟨le_refl _, .inr ⟨.inl rfl, fun x hx => by cases hx⟩⟩⟩

/-- lifetimes do not shrink -/
structure Grows (t t' : TTok) : Prop where
  inst : t.inst ≤ t'.inst
  bal : ∀ a x, t.bal a = some x → ∃ y, t'.bal a = some y ∧ x.live ≤ y.live

theorem Grows.refl (t : TTok) : Grows t t := ⟨le_refl _, fun _ x h => ⟨x, h, le_refl _⟩⟩

theorem Grows.trans {a b c : TTok} (h : Grows a b) (k : Grows b c) : Grows a c :=
  ⟨le_trans h.inst k.inst, fun d x hx => by
    obtain ⟨y, hy, l1⟩ := h.bal d x hx
    obtain ⟨z, hz, l2⟩ := k.bal d y hy
    exact ⟨z, hz, le_trans l1 l2⟩⟩

theorem Grows.of_eff {seq : Nat} {a : Addr} {v : Int} {t t' : TTok} (e : Eff seq a v t t') : Grows t t' := by
  refine ⟨le_of_eq e.inst.symm, fun d x hx => ?_⟩
  by_cases hd : d = a
  · subst hd; exact e.grows x hx
  · rw [← e.others d hd] at hx; exact ⟨x, hx, le_refl _⟩

theorem Grows.of_bump {n : Net} (hn : NetOK n) {seq : Nat} {t : TTok} :
    Grows t (bumpInst n seq t) ∧ seq + INSTANCE_THRESHOLD ≤ (bumpInst n seq t).inst := by
  have := extended_ge hn (seq := seq) (live := t.inst) (show INSTANCE_THRESHOLD ≤ INSTANCE_BUMP by decide) (by decide)
  exact ⟨⟨this.2, fun _ x h => ⟨x, h, le_refl _⟩⟩, this.1⟩

theorem Grows.of_same {t t' : TTok} (h1 : t'.bal = t.bal) (h2 : t'.inst = t.inst) : Grows t t' :=
  ⟨le_of_eq h2.symm, fun a x h => ⟨x, by rw [h1]; exact h, le_refl _⟩⟩

/-- what a write does to the allowances -/
theorem writeAllowance_shape {n : Net} {seq : Nat} {t t' : TTok} {o s : Addr} {x : Int} {e : Nat}
    (h : writeAllowance n seq t o s x e = .ok t') :
    t'.bal = t.bal ∧ t'.inst = t.inst ∧ (∀ o' s', ¬ (o' = o ∧ s' = s) → t'.allow o' s' = t.allow o' s') ∧
    (0 < x → ∃ l, t'.allow o s = some ⟨⟨x, e⟩, l⟩ ∧ e ≤ l) := by
  unfold writeAllowance at h
  simp only [bind_ok, req_ok] at h
  obtain ⟨_, h1, h⟩ := h
  have hv : (setTemp n seq (t.allow o s) ⟨x, e⟩).val = ⟨x, e⟩ := by
    unfold setTemp; split <;> rfl
  have oth : ∀ (en : Option (Live Allowance)) o' s', ¬ (o' = o ∧ s' = s) → upd t.allow o (upd (t.allow o) s en) o' s' = t.allow o' s' := by
    intro en o' s' hne
    simp only [upd_apply]
    split
    · simp only [upd_apply]
      split
      · exact absurd ⟨‹_›, ‹_›⟩ hne
      · subst_vars; rfl
    · rfl
  generalize setTemp n seq (t.allow o s) ⟨x, e⟩ = en at h hv
  obtain ⟨v, l⟩ := en
  simp only at hv
  subst hv
  split at h
  · rename_i hpos
    simp only [bind_ok, ok_inj, extendTemp, req_ok] at h
    obtain ⟨e', ⟨_, h2, rfl⟩, rfl⟩ := h
    refine ⟨rfl, rfl, oth _, fun _ => ?_⟩
    have : seq ≤ e := by
      by_contra hc; exact h1 ⟨hpos, by omega⟩
    simp only [upd_same]
    split
    · exact ⟨_, rfl, by omega⟩
    · exact ⟨_, rfl, by omega⟩
  · rw [ok_inj] at h
    subst h
    exact ⟨rfl, rfl, oth _, fun h' => absurd h' ‹_›⟩

theorem spendAllowance_shape {n : Net} {seq : Nat} {t t' : TTok} {o s : Addr} {x : Int}
    (h : spendAllowance n seq t o s x = .ok t') :
    t'.bal = t.bal ∧ t'.inst = t.inst ∧ (∀ o' s', ¬ (o' = o ∧ s' = s) → t'.allow o' s' = t.allow o' s') := by
  unfold spendAllowance at h
  simp only [bind_ok, req_ok] at h
  obtain ⟨_, h1, h⟩ := h
  split at h
  · simp only [bind_ok] at h
    obtain ⟨_, _, h⟩ := h
    obtain ⟨k1, k2, k3, -⟩ := writeAllowance_shape h
    exact ⟨k1, k2, k3⟩
  · rw [ok_inj] at h
    subst h
    exact ⟨rfl, rfl, fun _ _ _ => rfl⟩

theorem lives_of_grows {seq thr : Nat} {t t' : TTok} {a : Addr} (g : Grows t t') (h : ∃ y, t.bal a = some y ∧ seq + thr ≤ y.live) :
    ∃ y, t'.bal a = some y ∧ seq + thr ≤ y.live := by
  obtain ⟨y, hy, hl⟩ := h
  obtain ⟨z, hz, hz'⟩ := g.bal a y hy
  exact ⟨z, hz, le_trans hl hz'⟩

/-- what a call does to lifetimes and untouched allowances -/
theorem call_shape {n : Net} (hn : NetOK n) {c : Ctx} {t t' : TTok} {op : TokenOp} (h : callLive n c t op = .ok t') :
    Grows t t' ∧ c.seq + INSTANCE_THRESHOLD ≤ t'.inst ∧
    (∀ a ∈ parties op, ∃ y, t'.bal a = some y ∧ c.seq + BALANCE_THRESHOLD ≤ y.live) ∧
    (∀ o s, ¬ Touches o s op → t'.allow o s = t.allow o s) := by
  obtain ⟨g0, l0⟩ := Grows.of_bump hn (seq := c.seq) (t := t)
  cases op with
  | mint d x =>
    simp only [callLive, bind_ok, requireAuth_ok] at h
    obtain ⟨_, h1, _, h2, h3⟩ := h
    obtain ⟨-, e⟩ := receive_ok hn h3
    refine ⟨g0.trans (.of_eff e), by rw [e.inst]; exact l0, fun a ha => ?_, fun o s _ => by rw [e.allow]; rfl⟩
    simp only [parties, List.mem_singleton] at ha
    subst ha
    exact e.lives
  | setAdmin a =>
    simp only [callLive, bind_ok, requireAuth_ok, ok_inj] at h
    obtain ⟨_, h2, rfl⟩ := h
    exact ⟨⟨g0.inst, g0.bal⟩, l0, fun a ha => by simp [parties] at ha, fun o s _ => rfl⟩
  | approve o s x e =>
    simp only [callLive, bind_ok, requireAuth_ok] at h
    obtain ⟨_, h1, _, h2, h3⟩ := h
    obtain ⟨k1, k2, k3, -⟩ := writeAllowance_shape h3
    exact ⟨g0.trans (.of_same k1 k2), by rw [k2]; exact l0, fun a ha => by simp [parties] at ha,
      fun o' s' hne => k3 o' s' (fun hh => hne ⟨hh.1.symm, hh.2.symm⟩)⟩
  | transfer s d x =>
    simp only [callLive, bind_ok, requireAuth_ok] at h
    obtain ⟨_, h1, _, h2, t1, h3, h4⟩ := h
    obtain ⟨-, -, e1⟩ := spend_ok hn h3
    obtain ⟨-, e2⟩ := receive_ok hn h4
    refine ⟨g0.trans ((Grows.of_eff e1).trans (.of_eff e2)), by rw [e2.inst, e1.inst]; exact l0, fun a ha => ?_,
      fun o s _ => by rw [e2.allow, e1.allow]; rfl⟩
    simp only [parties, List.mem_cons, List.not_mem_nil, or_false] at ha
    rcases ha with rfl | rfl
    · exact lives_of_grows (.of_eff e2) e1.lives
    · exact e2.lives
  | transferFrom sp s d x =>
    simp only [callLive, bind_ok, requireAuth_ok] at h
    obtain ⟨_, h1, _, h2, t0, h0, t1, h3, h4⟩ := h
    obtain ⟨k1, k2, k3⟩ := spendAllowance_shape h0
    obtain ⟨-, -, e1⟩ := spend_ok hn h3
    obtain ⟨-, e2⟩ := receive_ok hn h4
    refine ⟨g0.trans ((Grows.of_same k1 k2).trans ((Grows.of_eff e1).trans (.of_eff e2))), by rw [e2.inst, e1.inst, k2]; exact l0,
      fun a ha => ?_, fun o' s' hne => ?_⟩
    · simp only [parties, List.mem_cons, List.not_mem_nil, or_false] at ha
      rcases ha with rfl | rfl
      · exact lives_of_grows (.of_eff e2) e1.lives
      · exact e2.lives
    · rw [e2.allow, e1.allow]; exact k3 o' s' (fun hh => hne ⟨hh.1.symm, hh.2.symm⟩)
  | burn s x =>
    simp only [callLive, bind_ok, requireAuth_ok] at h
    obtain ⟨_, h1, _, h2, h3⟩ := h
    obtain ⟨-, -, e⟩ := spend_ok hn h3
    refine ⟨g0.trans (.of_eff e), by rw [e.inst]; exact l0, fun a ha => ?_, fun o s _ => by rw [e.allow]; rfl⟩
    simp only [parties, List.mem_singleton] at ha
    subst ha
    exact e.lives
  | burnFrom sp s x =>
    simp only [callLive, bind_ok, requireAuth_ok] at h
    obtain ⟨_, h1, _, h2, t0, h0, h3⟩ := h
    obtain ⟨k1, k2, k3⟩ := spendAllowance_shape h0
    obtain ⟨-, -, e⟩ := spend_ok hn h3
    refine ⟨g0.trans ((Grows.of_same k1 k2).trans (.of_eff e)), by rw [e.inst, k2]; exact l0, fun a ha => ?_, fun o' s' hne => ?_⟩
    · simp only [parties, List.mem_singleton] at ha
      subst ha
      exact e.lives
    · rw [e.allow]; exact k3 o' s' (fun hh => hne ⟨hh.1.symm, hh.2.symm⟩)

/-- what the other transactions do to lifetimes and allowances -/
theorem upkeep_shape {n : Net} (hn : NetOK n) {c : Ctx} {t t' : TTok} {k : TOp} (hk : ∀ op, k ≠ .call op)
    (h : step n c t k = .ok t') : Grows t t' ∧ t'.allow = t.allow := by
  obtain ⟨g0, l0⟩ := Grows.of_bump hn (seq := c.seq) (t := t)
  have hp := hn.pers
  cases k with
  | call op => exact absurd rfl (hk op)
  | balance a =>
    simp only [step, bind_ok, ok_inj] at h
    obtain ⟨_, _, ⟨v, t1⟩, h1, rfl⟩ := h
    unfold readBal at h1
    cases hba : (bumpInst n c.seq t).bal a with
    | none =>
      simp only [hba, ok_inj, Prod.mk.injEq] at h1
      obtain ⟨-, rfl⟩ := h1
      exact ⟨g0, rfl⟩
    | some x =>
      simp only [hba] at h1
      split at h1
      · simp at h1
      · simp only [ok_inj, Prod.mk.injEq] at h1
        obtain ⟨-, rfl⟩ := h1
        refine ⟨⟨g0.inst, fun d y hy => ?_⟩, rfl⟩
        simp only [upd_apply]
        by_cases hd : d = a
        · subst hd
          have : t.bal d = some x := hba
          rw [this] at hy
          cases hy
          simp only [if_true]
          exact ⟨_, rfl, (extended_ge hn (show BALANCE_THRESHOLD ≤ BALANCE_BUMP by decide) (le_refl _)).2⟩
        · simp only [hd, if_false]
          exact ⟨y, hy, le_refl _⟩
  | allowance o s =>
    simp only [step, bind_ok, ok_inj] at h
    obtain ⟨_, _, rfl⟩ := h
    exact ⟨g0, rfl⟩
  | restoreBal a =>
    simp only [step] at h
    cases hba : t.bal a with
    | none => simp only [hba, ok_inj] at h; subst h; exact ⟨.refl _, rfl⟩
    | some x =>
      simp only [hba, ok_inj] at h
      subst h
      split
      · refine ⟨⟨le_refl _, fun d y hy => ?_⟩, rfl⟩
        simp only [upd_apply]
        by_cases hd : d = a
        · subst hd
          rw [hba] at hy
          cases hy
          simp only [if_true]
          exact ⟨_, rfl, by simp only; omega⟩
        · simp only [hd, if_false]
          exact ⟨y, hy, le_refl _⟩
      · exact ⟨.refl _, rfl⟩
  | restoreInst =>
    simp only [step, ok_inj] at h
    subst h
    split
    · exact ⟨⟨by simp only; omega, fun _ x h => ⟨x, h, le_refl _⟩⟩, rfl⟩
    · exact ⟨.refl _, rfl⟩

theorem step_grows {n : Net} (hn : NetOK n) {c : Ctx} {t t' : TTok} {k : TOp} (h : step n c t k = .ok t') : Grows t t' := by
  cases k with
  | call op =>
    simp only [step, bind_ok] at h
    obtain ⟨_, _, h⟩ := h
    exact (call_shape hn h).1
  | balance a => exact (upkeep_shape hn (by simp) h).1
  | allowance a s => exact (upkeep_shape hn (by simp) h).1
  | restoreBal a => exact (upkeep_shape hn (by simp) h).1
  | restoreInst => exact (upkeep_shape hn (by simp) h).1

theorem run_grows {n : Net} (hn : NetOK n) {t : TTok} {ks : List (Ctx × TOp)} : Grows t (run n t ks) := by
  induction ks generalizing t with
  | nil => exact .refl _
  | cons k ks ih =>
    refine Grows.trans ?_ ih
    unfold exec
    cases hst : step n k.1 t k.2 with
    | error e => exact .refl _
    | ok t' => exact step_grows hn hst

theorem run_allow {n : Net} (hn : NetOK n) {t : TTok} {ks : List (Ctx × TOp)} {o s : Addr}
    (h : ∀ k ∈ effective n t ks, ¬ Touches o s k.2) : (run n t ks).allow o s = t.allow o s := by
  induction ks generalizing t with
  | nil => rfl
  | cons k ks ih =>
    have h2 : ∀ k' ∈ effective n (exec n t k) ks, ¬ Touches o s k'.2 := fun k' hk' => h k' (List.mem_append_right _ hk')
    refine Eq.trans (ih h2) ?_
    have h1 : ∀ k' ∈ done n t k, ¬ Touches o s k'.2 := fun k' hk' => h k' (List.mem_append_left _ hk')
    obtain ⟨c, op⟩ := k
    unfold exec
    simp only
    cases hst : step n c t op with
    | error e => rfl
    | ok t' =>
      simp only
      cases op with
      | call op =>
        have hd : (c, op) ∈ done n t (c, .call op) := by unfold done; simp only [hst, List.mem_singleton]
        simp only [step, bind_ok] at hst
        obtain ⟨_, _, hst⟩ := hst
        exact (call_shape hn hst).2.2.2 o s (h1 _ hd)
      | balance a => rw [(upkeep_shape hn (by simp) hst).2]
      | allowance a s => rw [(upkeep_shape hn (by simp) hst).2]
      | restoreBal a => rw [(upkeep_shape hn (by simp) hst).2]
      | restoreInst => rw [(upkeep_shape hn (by simp) hst).2]

end Phoenix.Ttl
