import Verif.Model.Config
import Verif.Proofs.Base
import Verif.Proofs.Types

/-!
# Lemmas on the configuration parser
-/

namespace DPPIR.Config

/-- The counter exceeds what is left to read: the parser ran over the end. -/
def Bad (c : Cursor) : Prop := c.rest.length < c.n ∧ c.n < 2 ^ 64

/-- `p` reads `enc` as `v`, and on a proper prefix of `enc` fails or overruns. -/
structure Parses {α : Type} (p : Parser α) (enc : List Byte) (v : α) : Prop where
  full : ∀ t, enc.length + t.length < 2 ^ 64 →
    p ⟨enc ++ t ++ [0], enc.length + t.length⟩ = .ok (v, ⟨t ++ [0], t.length⟩)
  trunc : ∀ d, d <+: enc → d ≠ enc → d.length < 2 ^ 64 → ∀ v' c', p ⟨d ++ [0], d.length⟩ = .ok (v', c') → Bad c'

/-- `p` never recovers from an overrun. -/
def Keeps {α : Type} (p : Parser α) : Prop := ∀ c, Bad c → ∀ v c', p c = .ok (v, c') → Bad c'

theorem bad_skip {c : Cursor} (h : Bad c) {k : Nat} (hk : k ≤ c.rest.length) : Bad (c.skip k) := by
  obtain ⟨h1, h2⟩ := h
  unfold Bad Cursor.skip
  simp only [List.length_drop, wrap64]
  rw [show c.n + 2 ^ 64 - k = (c.n - k) + 2 ^ 64 by omega, Nat.add_mod_right, Nat.mod_eq_of_lt (by omega)]
  omega

theorem Parses.bind {α β : Type} {p : Parser α} {q : α → Parser β} {e1 e2 : List Byte} {v1 : α} {v2 : β}
    (hp : Parses p e1 v1) (hk : ∀ a, Keeps (q a)) (hq : Parses (q v1) e2 v2) : Parses (p.bind q) (e1 ++ e2) v2 := by
  constructor
  · intro t ht
    rw [List.length_append] at ht
    have h1 := hp.full (e2 ++ t) (by rw [List.length_append]; omega)
    have h2 := hq.full t (by omega)
    unfold Parser.bind
    simp only [List.append_assoc, List.length_append, ← Nat.add_assoc] at h1 h2 ⊢
    rw [h1]
    exact h2
  · intro d hd hne hlen v' c' h
    unfold Parser.bind at h
    rcases le_total d.length e1.length with hle | hle
    · have hd1 : d <+: e1 := List.prefix_of_prefix_length_le hd (List.prefix_append _ _) hle
      by_cases heq : d = e1
      · subst heq
        have h1 := hp.full [] (by simpa using hlen)
        simp only [List.append_nil, List.length_nil, Nat.add_zero] at h1
        rw [h1] at h
        refine hq.trunc [] (List.nil_prefix) ?_ (by norm_num) v' c' h
        rintro rfl
        simp at hne
      · cases hpc : p ⟨d ++ [0], d.length⟩ with
        | error e => rw [hpc] at h; cases h
        | ok r =>
          obtain ⟨a, c1⟩ := r
          rw [hpc] at h
          exact hk a c1 (hp.trunc d hd1 heq hlen a c1 hpc) v' c' h
    · have hd1 : e1 <+: d := List.prefix_of_prefix_length_le (List.prefix_append _ _) hd hle
      obtain ⟨d2, rfl⟩ := hd1
      have hd2 : d2 <+: e2 := (List.prefix_append_right_inj _).mp hd
      rw [List.length_append] at hlen
      have h1 := hp.full d2 hlen
      rw [List.length_append] at h
      rw [h1] at h
      exact hq.trunc d2 hd2 (by rintro rfl; exact hne rfl) (by omega) v' c' h

theorem Parses.pure {α : Type} (v : α) : Parses (Parser.pure v) [] v := by
  constructor
  · intro t _
    simp [Parser.pure]
  · intro d hd hne
    exact absurd (List.prefix_nil.mp hd) hne

theorem Parses.bind_pure {α β : Type} {p : Parser α} {e : List Byte} {v : α} (f : α → β) (hp : Parses p e v) :
    Parses (p.bind fun a => Parser.pure (f a)) e (f v) := by
  have := hp.bind (q := fun a => Parser.pure (f a)) (e2 := []) (v2 := f v)
    (by intro a c h v c' hc; cases hc; exact h) (Parses.pure _)
  simpa using this

theorem Keeps.bind {α β : Type} {p : Parser α} {q : α → Parser β} (hp : Keeps p) (hq : ∀ a, Keeps (q a)) :
    Keeps (p.bind q) := by
  intro c hc v c' h
  unfold Parser.bind at h
  cases hpc : p c with
  | error e => rw [hpc] at h; cases h
  | ok r =>
    obtain ⟨a, c1⟩ := r
    rw [hpc] at h
    exact hq a c1 (hp c hc a c1 hpc) v c' h

theorem Keeps.pure {α : Type} (v : α) : Keeps (Parser.pure v) := by
  intro c h v c' hc
  cases hc
  exact h

/-! ## Primitives -/

theorem keeps_int : Keeps bin2int := by
  intro c hc v c' h
  unfold bin2int at h
  split at h
  · cases h; exact bad_skip hc (by assumption)
  · cases h

theorem keeps_double : Keeps bin2double := by
  intro c hc v c' h
  unfold bin2double at h
  split at h
  · cases h; exact bad_skip hc (by assumption)
  · cases h

theorem keeps_key : Keeps readKey := by
  intro c hc v c' h
  unfold readKey at h
  split at h
  · split at h
    · cases h; exact bad_skip hc (by assumption)
    · cases h
  · cases h

theorem skip_full (enc t : List Byte) (h : enc.length + t.length < 2 ^ 64) :
    (Cursor.mk (enc ++ t ++ [0]) (enc.length + t.length)).skip enc.length = ⟨t ++ [0], t.length⟩ := by
  unfold Cursor.skip
  simp only [wrap64]
  rw [List.append_assoc, List.drop_left]
  congr 1
  rw [show enc.length + t.length + 2 ^ 64 - enc.length = t.length + 2 ^ 64 by omega, Nat.add_mod_right,
    Nat.mod_eq_of_lt (by omega)]

/-- A fixed-size read over a truncated input of fewer bytes overruns. -/
theorem skip_trunc {d : List Byte} {k : Nat} (h1 : k ≤ (d ++ [0]).length) (h2 : d.length < k) :
    Bad ((Cursor.mk (d ++ [0]) d.length).skip k) := by
  have hk : k = d.length + 1 := by simp at h1; omega
  subst hk
  unfold Bad Cursor.skip
  simp only [wrap64, List.length_drop, List.length_append, List.length_cons, List.length_nil]
  rw [show d.length + 2 ^ 64 - (d.length + 1) = 2 ^ 64 - 1 by omega]
  omega

theorem prefix_lt {d e : List Byte} (h : d <+: e) (hne : d ≠ e) : d.length < e.length := by
  rcases Nat.lt_or_ge d.length e.length with h1 | h1
  · exact h1
  · exact absurd (h.eq_of_length (le_antisymm h.length_le h1)) hne

theorem parses_int (v : BitVec 32) : Parses bin2int (int2bin v) v := by
  have hl : (int2bin v).length = 4 := by simp [int2bin]
  constructor
  · intro t ht
    unfold bin2int
    rw [if_pos (by simp only [List.length_append]; omega), ← hl, skip_full _ _ ht, List.append_assoc, List.take_left]
    rw [int2bin, ofNat_natOfLE_natLE 32 4 v rfl]
  · intro d hd hne _ v' c' h
    have := prefix_lt hd hne
    unfold bin2int at h
    split at h
    · rename_i h4
      cases h
      exact skip_trunc h4 (by omega)
    · cases h

theorem parses_double (v : BitVec 64) : Parses bin2double (double2bin v) v := by
  have hl : (double2bin v).length = 8 := by simp [double2bin]
  constructor
  · intro t ht
    unfold bin2double
    have hs := skip_full _ _ ht
    rw [hl] at hs
    have ht8 : (double2bin v ++ t ++ [0]).take 8 = double2bin v := by
      rw [List.append_assoc, List.take_left' hl]
    rw [if_pos (by simp only [List.length_append]; omega), hl, hs]
    simp only
    rw [ht8, double2bin, ofNat_natOfLE_natLE 64 8 v rfl]
  · intro d hd hne _ v' c' h
    have := prefix_lt hd hne
    unfold bin2double at h
    split at h
    · rename_i h4
      cases h
      exact skip_trunc h4 (by omega)
    · cases h

theorem parses_key (k : Fin keySize → Byte) : Parses readKey (List.ofFn k) k := by
  have hl : (List.ofFn k).length = keySize := by simp
  constructor
  · intro t ht
    unfold readKey
    have hs := skip_full _ _ ht
    have ht8 : (List.ofFn k ++ t ++ [0]).take keySize = List.ofFn k := by
      rw [List.append_assoc, List.take_left' hl]
    rw [hl] at hs ht
    rw [if_pos (by simp only; omega), if_pos (by simp only [List.length_append]; omega), hl, hs]
    simp only
    rw [ht8, arrayOf_ofFn]
  · intro d hd hne _ v' c' h
    have := prefix_lt hd hne
    unfold readKey at h
    rw [if_neg (by simp only; omega)] at h
    cases h

theorem bin2strFrom_inv (c : Cursor) (i : Nat) (s : List Byte) (c' : Cursor) (h : bin2strFrom c i = .ok (s, c')) :
    ∃ j, i ≤ j ∧ j < c.n ∧ c.rest[j]? = some 0 ∧ s = c.rest.take j ∧ c' = c.skip (j + 1) ∧
      ∀ k, i ≤ k → k < j → c.rest[k]? ≠ some 0 := by
  induction hm : c.n - i using Nat.strong_induction_on generalizing i with
  | _ m ih =>
    unfold bin2strFrom at h
    split at h
    · rename_i hi
      cases hr : rd c.rest i with
      | error e => rw [hr] at h; cases h
      | ok b =>
        rw [hr] at h
        rw [rd_eq_ok] at hr
        simp only at h
        split at h
        · rename_i hb
          subst hb
          cases h
          exact ⟨i, le_refl _, hi, hr, rfl, rfl, fun k h1 h2 => by omega⟩
        · rename_i hb
          obtain ⟨j, h1, h2, h3, h4, h5, h6⟩ := ih (c.n - (i + 1)) (by omega) (i + 1) h rfl
          refine ⟨j, by omega, h2, h3, h4, h5, ?_⟩
          intro k hk1 hk2
          by_cases hki : k = i
          · subst hki
            rw [hr]
            simpa using hb
          · exact h6 k (by omega) hk2
    · cases h

theorem bin2strFrom_ok (s t : List Byte) (n i : Nat) (hs : ∀ b ∈ s, b ≠ 0) (hn : s.length < n) (hi : i ≤ s.length) :
    bin2strFrom ⟨s ++ 0 :: t, n⟩ i = .ok (s, (Cursor.mk (s ++ 0 :: t) n).skip (s.length + 1)) := by
  induction hm : s.length - i generalizing i with
  | zero =>
    have : i = s.length := by omega
    subst this
    unfold bin2strFrom
    rw [dif_pos hn]
    have : rd (s ++ 0 :: t) s.length = .ok 0 := by rw [rd_ok (by simp)]; simp
    simp only [this, if_true, List.take_left]
  | succ m ih =>
    have hi' : i < s.length := by omega
    unfold bin2strFrom
    rw [dif_pos (by simp only; omega)]
    have : rd (s ++ 0 :: t) i = .ok s[i] := by
      rw [rd_ok (by simp; omega)]
      simp [List.getElem_append_left hi']
    simp only [this]
    rw [if_neg (hs _ (List.getElem_mem _)), ih (i + 1) (by omega) (by omega)]

theorem keeps_str : Keeps bin2str := by
  intro c hc v c' h
  obtain ⟨j, -, -, h3, -, h5, -⟩ := bin2strFrom_inv c 0 v c' h
  subst h5
  exact bad_skip hc (List.getElem?_eq_some_iff.mp h3).1

theorem parses_str (s : List Byte) (hs : ∀ b ∈ s, b ≠ 0) : Parses bin2str (s ++ [0]) s := by
  constructor
  · intro t ht
    have := bin2strFrom_ok s (t ++ [0]) ((s ++ [0]).length + t.length) 0 hs (by simp; omega) (by omega)
    have h2 := skip_full (s ++ [0]) t ht
    simp only [List.append_assoc, List.singleton_append, List.cons_append, List.nil_append, List.length_append, List.length_cons, List.length_nil] at this h2 ⊢
    unfold bin2str
    rw [this, h2]
  · intro d hd hne _ v' c' h
    exfalso
    have hlt := prefix_lt hd hne
    have hds : d <+: s := by
      apply List.prefix_of_prefix_length_le hd (List.prefix_append _ _)
      simp at hlt; omega
    obtain ⟨j, -, h2, h3, -⟩ := bin2strFrom_inv _ 0 v' c' h
    simp only at h2 h3
    rw [List.getElem?_append_left h2] at h3
    exact hs 0 (hds.subset (List.mem_of_getElem? h3)) rfl

/-! ## Composite -/

theorem keeps_server : Keeps readServer :=
  keeps_int.bind fun _ => keeps_int.bind fun _ => keeps_int.bind fun _ => keeps_str.bind fun _ => Keeps.pure _

theorem parses_server (s : ServerConfig) (h : ∀ b ∈ s.ip, b ≠ 0) : Parses readServer (serializeServer s) s := by
  have h1 := (parses_str s.ip h).bind_pure (fun ip => ServerConfig.mk s.localSeed s.port s.parallelPort ip)
  have h2 := (parses_int s.parallelPort).bind
    (q := fun parallelPort => bin2str.bind fun ip => .pure (ServerConfig.mk s.localSeed s.port parallelPort ip))
    (fun _ => keeps_str.bind fun _ => Keeps.pure _) h1
  have h3 := (parses_int s.port).bind
    (q := fun port => bin2int.bind fun parallelPort => bin2str.bind fun ip =>
      .pure (ServerConfig.mk s.localSeed port parallelPort ip))
    (fun _ => keeps_int.bind fun _ => keeps_str.bind fun _ => Keeps.pure _) h2
  have h4 := (parses_int s.localSeed).bind
    (q := fun localSeed => bin2int.bind fun port => bin2int.bind fun parallelPort => bin2str.bind fun ip =>
      .pure (ServerConfig.mk localSeed port parallelPort ip))
    (fun _ => keeps_int.bind fun _ => keeps_int.bind fun _ => keeps_str.bind fun _ => Keeps.pure _) h3
  unfold readServer serializeServer
  simpa only [List.append_assoc] using h4

theorem keeps_servers (k : Nat) : Keeps (readServers k) := by
  induction k with
  | zero => exact Keeps.pure _
  | succ k ih => exact keeps_server.bind fun _ => ih.bind fun _ => Keeps.pure _

theorem parses_servers (ss : List ServerConfig) (h : ∀ s ∈ ss, ∀ b ∈ s.ip, b ≠ 0) :
    Parses (readServers ss.length) (ss.map serializeServer).flatten ss := by
  induction ss with
  | nil => exact Parses.pure _
  | cons s t ih =>
    have h1 := (ih (fun x hx => h x (by simp [hx]))).bind_pure (fun ss => s :: ss)
    exact (parses_server s (h s (by simp))).bind (q := fun s => (readServers t.length).bind fun ss => .pure (s :: ss))
      (fun _ => (keeps_servers _).bind fun _ => Keeps.pure _) h1

/-- Bytes of a party, without the assertion. -/
def partyBytes (p : PartyConfig) : List Byte :=
  int2bin p.sharedSeed ++ List.ofFn p.pkey ++ List.ofFn p.skey ++ (p.servers.map serializeServer).flatten

theorem keeps_party (n : Nat) : Keeps (readParty n) :=
  keeps_int.bind fun _ => keeps_key.bind fun _ => keeps_key.bind fun _ => (keeps_servers n).bind fun _ => Keeps.pure _

theorem parses_party (p : PartyConfig) (h : ∀ s ∈ p.servers, ∀ b ∈ s.ip, b ≠ 0) :
    Parses (readParty p.servers.length) (partyBytes p) p := by
  have h1 := (parses_servers p.servers h).bind_pure (fun servers => PartyConfig.mk p.sharedSeed servers p.pkey p.skey)
  have h2 := (parses_key p.skey).bind
    (q := fun skey => (readServers p.servers.length).bind fun servers => .pure (PartyConfig.mk p.sharedSeed servers p.pkey skey))
    (fun _ => (keeps_servers _).bind fun _ => Keeps.pure _) h1
  have h3 := (parses_key p.pkey).bind
    (q := fun pkey => readKey.bind fun skey => (readServers p.servers.length).bind fun servers =>
      .pure (PartyConfig.mk p.sharedSeed servers pkey skey))
    (fun _ => keeps_key.bind fun _ => (keeps_servers _).bind fun _ => Keeps.pure _) h2
  have h4 := (parses_int p.sharedSeed).bind
    (q := fun sharedSeed => readKey.bind fun pkey => readKey.bind fun skey =>
      (readServers p.servers.length).bind fun servers => .pure (PartyConfig.mk sharedSeed servers pkey skey))
    (fun _ => keeps_key.bind fun _ => keeps_key.bind fun _ => (keeps_servers _).bind fun _ => Keeps.pure _) h3
  unfold readParty partyBytes
  simpa only [List.append_assoc] using h4

theorem keeps_parties (n k : Nat) : Keeps (readParties n k) := by
  induction k with
  | zero => exact Keeps.pure _
  | succ k ih => exact (keeps_party n).bind fun _ => ih.bind fun _ => Keeps.pure _

theorem parses_parties (n : Nat) (ps : List PartyConfig) (hn : ∀ p ∈ ps, p.servers.length = n)
    (h : ∀ p ∈ ps, ∀ s ∈ p.servers, ∀ b ∈ s.ip, b ≠ 0) :
    Parses (readParties n ps.length) (ps.map partyBytes).flatten ps := by
  induction ps with
  | nil => exact Parses.pure _
  | cons p t ih =>
    have h1 := (ih (fun x hx => hn x (by simp [hx])) (fun x hx => h x (by simp [hx]))).bind_pure (fun ps => p :: ps)
    have h0 := parses_party p (h p (by simp))
    rw [hn p (by simp)] at h0
    exact h0.bind (q := fun p => (readParties n t.length).bind fun ps => .pure (p :: ps))
      (fun _ => (keeps_parties _ _).bind fun _ => Keeps.pure _) h1

/-- Bytes of a configuration, without the assertions. -/
def configBytes (c : Config) : List Byte :=
  int2bin c.dbSize ++ double2bin c.epsilon ++ double2bin c.delta ++
    int2bin (c.partyCount.setWidth 32) ++ int2bin (c.serverCount.setWidth 32) ++ (c.parties.map partyBytes).flatten

theorem mapM_serializeParty (n : BitVec 8) (ps : List PartyConfig) :
    ps.mapM (serializeParty n) =
      if ∀ p ∈ ps, p.servers.length = n.toNat then .ok (ps.map partyBytes) else .error .assertFail := by
  induction ps with
  | nil => simp; rfl
  | cons p t ih =>
    rw [List.mapM_cons, ih]
    unfold serializeParty
    by_cases h1 : p.servers.length = n.toNat
    · by_cases h2 : ∀ p ∈ t, p.servers.length = n.toNat
      · rw [if_pos h1, if_pos h2, if_pos (by simp only [List.mem_cons, forall_eq_or_imp]; exact ⟨h1, h2⟩)]
        rfl
      · rw [if_pos h1, if_neg h2, if_neg (by simp only [List.mem_cons, forall_eq_or_imp]; exact fun h => h2 h.2)]
        rfl
    · rw [if_neg h1, if_neg (c := ∀ q ∈ p :: t, q.servers.length = n.toNat) (fun h => h1 (h p (by simp)))]
      rfl

theorem serialize_eq (c : Config) : serialize c =
    if c.parties.length = c.partyCount.toNat ∧ ∀ p ∈ c.parties, p.servers.length = c.serverCount.toNat then
      .ok (configBytes c) else .error .assertFail := by
  unfold serialize
  rw [mapM_serializeParty]
  by_cases h1 : c.parties.length = c.partyCount.toNat
  · by_cases h2 : ∀ p ∈ c.parties, p.servers.length = c.serverCount.toNat
    · simp only [if_pos h1, if_pos h2, if_pos (And.intro h1 h2), bind_ok]
      rfl
    · rw [if_neg (c := _ ∧ _) (fun h => h2 h.2)]
      simp only [if_pos h1, if_neg h2, bind_error]
  · rw [if_neg (c := _ ∧ _) (fun h => h1 h.1)]
    simp only [if_neg h1]

theorem parses_config (c : Config) (h1 : c.parties.length = c.partyCount.toNat)
    (h2 : ∀ p ∈ c.parties, p.servers.length = c.serverCount.toNat)
    (h3 : ∀ p ∈ c.parties, ∀ s ∈ p.servers, ∀ b ∈ s.ip, b ≠ 0) : Parses readConfig (configBytes c) c := by
  have e1 : (c.partyCount.setWidth 32).setWidth 8 = c.partyCount := by
    apply BitVec.eq_of_toNat_eq; simp
  have e2 : (c.serverCount.setWidth 32).setWidth 8 = c.serverCount := by
    apply BitVec.eq_of_toNat_eq; simp
  have g0 := parses_parties c.serverCount.toNat c.parties h2 h3
  rw [h1] at g0
  have g1 := g0.bind_pure (fun parties => Config.mk c.dbSize c.epsilon c.delta c.partyCount c.serverCount parties)
  have g2 := (parses_int (c.serverCount.setWidth 32)).bind
    (q := fun sc => (readParties (sc.setWidth 8).toNat c.partyCount.toNat).bind fun parties =>
      .pure (Config.mk c.dbSize c.epsilon c.delta c.partyCount (sc.setWidth 8) parties))
    (fun _ => (keeps_parties _ _).bind fun _ => Keeps.pure _) (by simp only [e2]; exact g1)
  have g3 := (parses_int (c.partyCount.setWidth 32)).bind
    (q := fun pc => bin2int.bind fun sc => (readParties (sc.setWidth 8).toNat (pc.setWidth 8).toNat).bind fun parties =>
      .pure (Config.mk c.dbSize c.epsilon c.delta (pc.setWidth 8) (sc.setWidth 8) parties))
    (fun _ => keeps_int.bind fun _ => (keeps_parties _ _).bind fun _ => Keeps.pure _) (by simp only [e1]; exact g2)
  have g4 := (parses_double c.delta).bind
    (q := fun delta => bin2int.bind fun pc => bin2int.bind fun sc =>
      (readParties (sc.setWidth 8).toNat (pc.setWidth 8).toNat).bind fun parties =>
      .pure (Config.mk c.dbSize c.epsilon delta (pc.setWidth 8) (sc.setWidth 8) parties))
    (fun _ => keeps_int.bind fun _ => keeps_int.bind fun _ => (keeps_parties _ _).bind fun _ => Keeps.pure _) g3
  have g5 := (parses_double c.epsilon).bind
    (q := fun epsilon => bin2double.bind fun delta => bin2int.bind fun pc => bin2int.bind fun sc =>
      (readParties (sc.setWidth 8).toNat (pc.setWidth 8).toNat).bind fun parties =>
      .pure (Config.mk c.dbSize epsilon delta (pc.setWidth 8) (sc.setWidth 8) parties))
    (fun _ => keeps_double.bind fun _ => keeps_int.bind fun _ => keeps_int.bind fun _ =>
      (keeps_parties _ _).bind fun _ => Keeps.pure _) g4
  have g6 := (parses_int c.dbSize).bind
    (q := fun dbSize => bin2double.bind fun epsilon => bin2double.bind fun delta => bin2int.bind fun pc =>
      bin2int.bind fun sc => (readParties (sc.setWidth 8).toNat (pc.setWidth 8).toNat).bind fun parties =>
      .pure (Config.mk dbSize epsilon delta (pc.setWidth 8) (sc.setWidth 8) parties))
    (fun _ => keeps_double.bind fun _ => keeps_double.bind fun _ => keeps_int.bind fun _ => keeps_int.bind fun _ =>
      (keeps_parties _ _).bind fun _ => Keeps.pure _) g5
  unfold readConfig configBytes
  simpa only [List.append_assoc] using g6

/-! ## What a returned configuration looks like -/

/-- Every value `p` returns satisfies `P`. -/
def Yields {α : Type} (p : Parser α) (P : α → Prop) : Prop := ∀ c v c', p c = .ok (v, c') → P v

theorem Yields.bind {α β : Type} {p : Parser α} {q : α → Parser β} {P : α → Prop} {Q : β → Prop} (hp : Yields p P)
    (hq : ∀ a, P a → Yields (q a) Q) : Yields (p.bind q) Q := by
  intro c v c' h
  unfold Parser.bind at h
  cases hpc : p c with
  | error e => rw [hpc] at h; cases h
  | ok r =>
    obtain ⟨a, c1⟩ := r
    rw [hpc] at h
    exact hq a (hp c a c1 hpc) c1 v c' h

theorem Yields.pure {α : Type} {v : α} {P : α → Prop} (h : P v) : Yields (Parser.pure v) P := by
  intro c v' c' hc
  cases hc
  exact h

theorem Yields.any {α : Type} (p : Parser α) : Yields p (fun _ => True) := fun _ _ _ _ => trivial

theorem yields_str : Yields bin2str (fun s => ∀ b ∈ s, b ≠ 0) := by
  intro c v c' h
  obtain ⟨j, -, -, h3, h4, -, h6⟩ := bin2strFrom_inv c 0 v c' h
  subst h4
  intro b hb
  obtain ⟨k, hk⟩ := List.getElem?_of_mem hb
  rintro rfl
  rw [List.getElem?_take] at hk
  split at hk
  · exact h6 k (by omega) (by assumption) hk
  · cases hk

theorem yields_server : Yields readServer (fun s => ∀ b ∈ s.ip, b ≠ 0) :=
  (Yields.any _).bind fun _ _ => (Yields.any _).bind fun _ _ => (Yields.any _).bind fun _ _ =>
    yields_str.bind fun _ h => Yields.pure h

theorem yields_servers (k : Nat) :
    Yields (readServers k) (fun ss => ss.length = k ∧ ∀ s ∈ ss, ∀ b ∈ s.ip, b ≠ 0) := by
  induction k with
  | zero => exact Yields.pure (by simp)
  | succ k ih =>
    exact yields_server.bind fun s hs => ih.bind fun ss hss => Yields.pure (by
      refine ⟨by simp [hss.1], ?_⟩
      intro x hx
      rcases List.mem_cons.mp hx with rfl | hx
      · exact hs
      · exact hss.2 x hx)

theorem yields_party (n : Nat) :
    Yields (readParty n) (fun p => p.servers.length = n ∧ ∀ s ∈ p.servers, ∀ b ∈ s.ip, b ≠ 0) :=
  (Yields.any _).bind fun _ _ => (Yields.any _).bind fun _ _ => (Yields.any _).bind fun _ _ =>
    (yields_servers n).bind fun _ h => Yields.pure h

theorem yields_parties (n k : Nat) :
    Yields (readParties n k) (fun ps => ps.length = k ∧ ∀ p ∈ ps, p.servers.length = n ∧ ∀ s ∈ p.servers, ∀ b ∈ s.ip, b ≠ 0) := by
  induction k with
  | zero => exact Yields.pure (by simp)
  | succ k ih =>
    exact (yields_party n).bind fun s hs => ih.bind fun ss hss => Yields.pure (by
      refine ⟨by simp [hss.1], ?_⟩
      intro x hx
      rcases List.mem_cons.mp hx with rfl | hx
      · exact hs
      · exact hss.2 x hx)

theorem yields_config : Yields readConfig (fun c => c.parties.length = c.partyCount.toNat ∧
    ∀ p ∈ c.parties, p.servers.length = c.serverCount.toNat ∧ ∀ s ∈ p.servers, ∀ b ∈ s.ip, b ≠ 0) :=
  (Yields.any _).bind fun _ _ => (Yields.any _).bind fun _ _ => (Yields.any _).bind fun _ _ =>
    (Yields.any _).bind fun _ _ => (Yields.any _).bind fun _ _ => (yields_parties _ _).bind fun _ h => Yields.pure h

end DPPIR.Config
