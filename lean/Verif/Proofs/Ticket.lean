import Verif.Proofs.Protocol
import Verif.Proofs.State

/-!
# The secrets of one query, seen from one link of the chain
-/

namespace DPPIR.Protocol
open DPPIR Proc Onion Incremental Additive Spec Props

variable {box : SealedBox}

/-- What belongs to one query before party `k`: its tag, the shares and masks of the
parties from `k` on, and the remaining sealing randomness. -/
structure Ticket (box : SealedBox) where
  tag : BitVec 64
  shares : List Share
  pres : List Preshare
  coins : Nat → box.Coins

namespace Ticket

def secrets (t : Ticket box) : List OfflineSecret := List.zipWith (fun s p => ⟨t.tag, t.tag, s, p⟩) t.shares t.pres

def next (t : Ticket box) : Ticket box := ⟨t.tag, t.shares.tail, t.pres.tail, fun i => t.coins (i + 1)⟩

/-- The secret of the next party. -/
def head (t : Ticket box) : OfflineSecret := ⟨t.tag, t.tag, t.shares.headD ⟨0, 1⟩, t.pres.headD (fun _ => 0)⟩

/-- The onion cipher. -/
def cipher (pkeys : List box.PKey) (k : Nat) (t : Ticket box) : List Byte :=
  (layered box t.coins 0 ((pkeys.drop k).zip t.secrets)).getD []

structure Good (m : Nat) (t : Ticket box) : Prop where
  shares : t.shares.length = m
  pres : t.pres.length = m

theorem Good.secrets {m : Nat} {t : Ticket box} (h : t.Good m) : t.secrets.length = m := by
  simp [Ticket.secrets, h.shares, h.pres]

theorem Good.next {m : Nat} {t : Ticket box} (h : t.Good (m + 1)) : t.next.Good m :=
  ⟨by simp [Ticket.next, h.shares], by simp [Ticket.next, h.pres]⟩

theorem Good.secrets_cons {m : Nat} {t : Ticket box} (h : t.Good (m + 1)) :
    t.secrets = t.head :: t.next.secrets := by
  obtain ⟨tag, shares, pres, coins⟩ := t
  obtain ⟨h1, h2⟩ := h
  cases shares with
  | nil => simp at h1
  | cons s shares =>
    cases pres with
    | nil => simp at h2
    | cons p pres => rfl

variable {pkeys : List box.PKey} {skeys : List box.SKey}

theorem encrypt_eq (hgood : GoodKeys box pkeys skeys) (hp : pkeys.length ≤ 255) {k m : Nat} {t : Ticket box}
    (h : t.Good m) (hk : k + m = pkeys.length) (junk junk' : Nat → Byte) :
    onionEncrypt box t.coins junk junk' t.secrets k pkeys.length pkeys = .ok (t.cipher pkeys k) ∧
      layered box t.coins 0 ((pkeys.drop k).zip t.secrets) = some (t.cipher pkeys k) := by
  obtain ⟨c, h1, h2⟩ := onionEncrypt_ok box t.coins junk junk' t.secrets k pkeys.length pkeys skeys hgood (by omega) hp
    (Nat.le_refl _) (by rw [h.secrets]; omega)
  rw [List.take_of_length_le (by simp)] at h2
  have e : t.cipher pkeys k = c := by unfold cipher; rw [h2]; rfl
  rw [e]
  exact ⟨h1, h2⟩

theorem cipher_length (hgood : GoodKeys box pkeys skeys) (hp : pkeys.length ≤ 255) {k m : Nat} {t : Ticket box}
    (h : t.Good m) (hk : k + m = pkeys.length) : (t.cipher pkeys k).length = cipherSize m := by
  have := layered_length _ _ _ _ _ (encrypt_eq hgood hp h hk (fun _ => 0) (fun _ => 0)).2
  rw [this]
  congr 1
  simp [h.secrets]
  omega

theorem peel (hgood : GoodKeys box pkeys skeys) (hp : pkeys.length ≤ 255) {k m : Nat} {t : Ticket box}
    (h : t.Good (m + 1)) (hk : k + (m + 1) = pkeys.length) (tail : List Byte) (pk : box.PKey) (sk : box.SKey)
    (hpk : pkeys[k]? = some pk) (hsk : skeys[k]? = some sk) :
    ∃ layer, onionDecrypt box (t.cipher pkeys k ++ tail) (m + 1) pk sk = .ok layer ∧
      layer.msg = .ok t.head ∧ layer.nextLayer = t.next.cipher pkeys (k + 1) := by
  have h2 := (encrypt_eq hgood hp h hk (fun _ => 0) (fun _ => 0)).2
  have hkl : k < pkeys.length := by omega
  obtain ⟨hk1, rfl⟩ := List.getElem?_eq_some_iff.1 hpk
  obtain ⟨hk2, rfl⟩ := List.getElem?_eq_some_iff.1 hsk
  rw [h.secrets_cons, List.drop_eq_getElem_cons hkl, List.zip_cons_cons] at h2
  obtain ⟨layer, h3, h4, h5⟩ := peel_one box t.coins 0 _ _ _ _ _ tail (hgood.2 k hk1 hk2) h2
  have hl : ((pkeys.drop (k + 1)).zip t.next.secrets).length = m := by
    simp [h.next.secrets]; omega
  rw [hl] at h3
  refine ⟨layer, h3, h4, ?_⟩
  have h6 := (encrypt_eq hgood hp h.next (show k + 1 + m = _ by omega) (fun _ => 0) (fun _ => 0)).2
  have : (t.next).coins = fun i => t.coins (i + 1) := rfl
  rw [this, layered_shift, h5] at h6
  exact Option.some.inj h6

end Ticket

/-! ### Fresh secrets -/

namespace SecretRand

/-- The ticket made from fresh randomness for `m` parties. -/
def ticket (r : SecretRand box) (m : Nat) (tag : BitVec 64) : Ticket box :=
  ⟨tag, preIncrementalSecretShares r.shares m, (List.range m).map r.preshares, r.coins⟩

/-- The mask kept by the maker. -/
def own (r : SecretRand box) (m : Nat) : Preshare := bxAll ((List.range m).map r.preshares) (fun _ => 0)

theorem ticket_good (r : SecretRand box) (m : Nat) (tag : BitVec 64) : (r.ticket m tag).Good m :=
  ⟨preShares_length _ _, by simp [ticket]⟩

end SecretRand

theorem vecAt_ok {α : Type} {l : List α} {i : Nat} (h : i < l.length) : vecAt l i = .ok l[i] := by
  simp [vecAt, h]

theorem buildSecrets_ok (tag : BitVec 64) (incs : List Share) (pres : List Preshare) (n i : Nat)
    (h1 : i + n ≤ incs.length) (h2 : i + n ≤ pres.length) :
    buildSecrets tag incs pres n i tag =
      .ok (List.zipWith (fun s p => ⟨tag, tag, s, p⟩) ((incs.drop i).take n) ((pres.drop i).take n), tag) := by
  induction n generalizing i with
  | zero => simp [buildSecrets]
  | succ n ih =>
    unfold buildSecrets
    rw [vecAt_ok (by omega), bind_ok, vecAt_ok (by omega), bind_ok, ih (i + 1) (by omega) (by omega), bind_ok]
    rw [List.drop_eq_getElem_cons (by omega : i < incs.length), List.drop_eq_getElem_cons (by omega : i < pres.length),
      List.take_succ_cons, List.take_succ_cons, List.zipWith_cons_cons]

/-- The common part of `MakeSecret` and `MakeNoiseSecret`. -/
theorem buildSecrets_ticket (r : SecretRand box) (m : Nat) (tag : BitVec 64) :
    buildSecrets tag (preIncrementalSecretShares r.shares m)
      ((List.range m).map r.preshares ++ [r.own m]) m 0 tag = .ok ((r.ticket m tag).secrets, tag) := by
  rw [buildSecrets_ok _ _ _ _ _ (by rw [preShares_length]; omega) (by simp)]
  rw [List.drop_zero, List.drop_zero, List.take_of_length_le (by rw [preShares_length]), List.take_left' (by simp)]
  rfl

/-! ### A query on its way -/

/-- A query on its way: key, current tally, and the shares and masks still to come. -/
structure QTicket where
  tag : BitVec 64
  tally : BitVec 32
  key : Nat
  shares : List Share
  pres : List Preshare

namespace QTicket

def query (q : QTicket) : Query := ⟨q.tag, q.tally⟩

/-- The response on the way back. -/
def resp (q : QTicket) : Response := Response.ofMem (bxAll q.pres (Response.mem (Database.row q.key)))

/-- After the next party. -/
def next (q : QTicket) : QTicket :=
  { q with
    tally := incrementalReconstruct q.tally (q.shares.headD ⟨0, 1⟩)
    shares := q.shares.tail
    pres := q.pres.tail }

structure Good (rows m : Nat) (q : QTicket) : Prop where
  shares : q.shares.length = m
  pres : q.pres.length = m
  key : q.key < rows
  tally : (applyAll q.shares q.tally).toNat = q.key

theorem Good.next {rows m : Nat} {q : QTicket} (h : q.Good rows (m + 1)) : q.next.Good rows m := by
  obtain ⟨tag, tally, key, shares, pres⟩ := q
  obtain ⟨h1, h2, h3, h4⟩ := h
  cases shares with
  | nil => simp at h1
  | cons s shares =>
    cases pres with
    | nil => simp at h2
    | cons p pres => exact ⟨by simpa [QTicket.next] using h1, by simpa [QTicket.next] using h2, h3, h4⟩

theorem Good.resp_next {rows m : Nat} {q : QTicket} (h : q.Good rows (m + 1)) (t : Response) :
    additiveReconstructInto q.next.resp (q.pres.headD (fun _ => 0)) t = .ok q.resp := by
  obtain ⟨tag, tally, key, shares, pres⟩ := q
  obtain ⟨h1, h2, h3, h4⟩ := h
  cases pres with
  | nil => simp at h2
  | cons p pres =>
    rw [additiveReconstructInto_ok]
    simp only [resp, QTicket.next, List.tail_cons, List.headD_cons, mem_ofMem]
    congr 2
    show _ = bxAll pres (bx _ p)
    rw [bxAll_zero pres (bx _ p), bxAll_zero pres (Response.mem _), bx_right_comm]

/-- The tally of a key. -/
def fresh (tag : BitVec 64) (key : Nat) (shares : List Share) (pres : List Preshare) : QTicket :=
  ⟨tag, (match generateIncrementalTally (BitVec.ofNat 32 key) shares with | .ok t => t | .error _ => 0), key, shares, pres⟩

theorem fresh_ok (tag : BitVec 64) (key : Nat) (shares : List Share) (pres : List Preshare)
    (hs : ∀ s ∈ shares, IsShare s) (hne : shares ≠ []) (rows : Nat) (hk : key < rows) (hrows : rows ≤ p)
    (hl : pres.length = shares.length) :
    generateIncrementalTally (BitVec.ofNat 32 key) shares = .ok (fresh tag key shares pres).tally ∧
      (fresh tag key shares pres).Good rows shares.length := by
  obtain ⟨t, h1, -, h3⟩ := roundtrip_aux (BitVec.ofNat 32 key) shares hs hne
  have hp : p < 2 ^ 32 := by decide
  refine ⟨by simp only [fresh, h1], rfl, hl, hk, ?_⟩
  simp only [fresh, h1, h3]
  rw [BitVec.toNat_ofNat, Nat.mod_eq_of_lt (by omega : key < 2 ^ 32), Nat.mod_eq_of_lt (by omega)]

end QTicket

/-- The identity shares of the simulated mode. -/
theorem isShare_id : IsShare ⟨0, 1⟩ := by
  refine ⟨?_, ?_, ?_⟩ <;> decide

end DPPIR.Protocol
