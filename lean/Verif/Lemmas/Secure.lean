import Verif.Spec.Secure
import Verif.Lemmas.Uplink
import Verif.Props.Tls
import Verif.Props.Trust
/-!
# Lemmas about the servers the client identifies itself to
-/
namespace Verif.Lemmas.Secure
open Verif Verif.Client Verif.Secure Verif.Uplink Verif.Spec Verif.Spec.Client Verif.Spec.Secure
open Verif.Props.Client (hist)

/-! ### Who is genuine -/

theorem did_exists : ∀ f : Trust.Prog, ∃ l code, Trust.Did f l code
  | .ret code => ⟨[], code, .ret⟩
  | .call c next => by
    cases h : (c matches .caFile (some _) | .pem (some _) true | .der (some _) true) with
    | true => obtain ⟨l, code, hd⟩ := did_exists (next 0); exact ⟨_, code, .good h hd⟩
    | false => obtain ⟨l, code, hd⟩ := did_exists (next 22); exact ⟨_, code, .bad h hd⟩

theorem trusted_authority {new : Option Trust.Builder} {ok : Bool} {s : Trust.Store} {b : Trust.Builder}
    (h : Trust.getTlsConnector new ok s = some b) {c : Nat} (hc : c ∈ b.trusted) : Authority new s c := by
  obtain ⟨b0, rfl, rfl, hl⟩ := Trust.getTlsConnector_eq.1 h
  unfold Authority
  cases s with
  | default ps =>
    obtain ⟨b', h1, -, -, h2⟩ := Verif.Trust.C100_default b0 ps
    rw [h] at h1
    cases h1
    exact (h2 c hc).imp (fun h => ⟨b0, rfl, h⟩) id
  | custom f =>
    cases f with
    | none =>
      have : b = { Trust.harden b0 with ciphers := Trust.cipherList } := (Prod.ext_iff.1 hl).1.symm
      subst this
      exact .inl ⟨b0, rfl, hc⟩
    | some f =>
      obtain ⟨calls, code, hd⟩ := did_exists f
      have hcode := (Verif.Trust.C101_code b0 f calls code hd).1 (by rw [h]; rfl)
      subst hcode
      obtain ⟨b', h1, h2⟩ := Verif.Trust.C101_files_partial b0 f calls hd
      rw [h] at h1
      cases h1
      exact ((h2 c).1 hc).imp (fun h => ⟨b0, rfl, h⟩) (fun h => ⟨calls, hd, h⟩)

theorem host_hostname (a : Bytes) : Host a (Tls.hostname a) := by
  by_cases h : 58 ∈ a
  · obtain ⟨x, p, rfl, hp⟩ : ∃ x p, a = x ++ 58 :: p ∧ 58 ∉ p := by
      induction a with
      | nil => cases h
      | cons c a ih =>
        by_cases ha : 58 ∈ a
        · obtain ⟨x, p, h1, h2⟩ := ih ha
          exact ⟨c :: x, p, by rw [h1]; rfl, h2⟩
        · rcases List.mem_cons.1 h with rfl | h
          · exact ⟨[], a, rfl, ha⟩
          · exact absurd h ha
    exact .inr ⟨p, hp, by rw [Props.Tls.C97_hostname x p hp]⟩
  · refine .inl ⟨h, ?_⟩
    unfold Tls.hostname Tls.rfind
    rw [if_neg h]

theorem connected_handshake {n : Tls.Net} {j t : Nat} (h : Tls.connect n = (.connected j, t)) :
    (n.handshake j).ok = true := by
  unfold Tls.connect at h
  repeat' split at h
  all_goals first | (cases h; done) | skip
  · rename_i ho; cases h; exact ho

theorem genuine {k : Trial} {a : Bytes} (h : k.At a) (ht : k.call.tls = true) {j t : Nat}
    (hc : Tls.connect k.call.net = (.connected j, t)) : Genuine k a (k.peers j) := by
  have hs := h.context
  rw [ht] at hs
  obtain ⟨b, hb⟩ := Option.isSome_iff_exists.1 hs.symm
  obtain ⟨h1, h2⟩ := h.handshake b hb j (connected_handshake hc)
  obtain ⟨b0, hn, -⟩ := Trust.getTlsConnector_eq.1 hb
  rw [hn] at hb
  obtain ⟨h3, -, h4⟩ := (Verif.Trust.C100_handshake b0 k.ciphersOk k.store b hb _).1 h1
  rw [← hn] at hb
  exact ⟨h3, trusted_authority hb h4, _, host_hostname a, h2 rfl⟩

/-! ### Where a redirect comes from -/

open Wire in
theorem drain_contains (P : Bytes → Prop) (m : Message) (n : Nat) : ∀ bs : Bytes, bs.length ≤ n →
    m ∈ (drain ⟨bs, false⟩).1 →
    (∀ x, Whole x (11 + field x 7 4) → m.header.service.toNat = field x 1 2 → m.payload = slice x 11 (field x 7 4) →
      P (x.take (11 + field x 7 4))) → Contains P bs := by
  induction n with
  | zero =>
    intro bs hl hm
    rw [drain_none (decode_short (by omega))] at hm
    cases hm
  | succ n ih =>
    intro bs hl hm hP
    obtain ⟨c1, c2, c3, c4⟩ := Props.Wire.C03_decode_exact bs
    by_cases h1 : bs.length < 11
    · rw [drain_none (c1 h1)] at hm; cases hm
    · have h1 : 11 ≤ bs.length := by omega
      by_cases h2 : bs[0]? = some 2
      · by_cases h3 : bs.length < 11 + field bs 7 4
        · rw [drain_none (c3 h1 h2 h3)] at hm; cases hm
        · have hw : Whole bs (11 + field bs 7 4) := ⟨h1, h2, rfl, by omega⟩
          obtain ⟨m', d1, d2, -, d4⟩ := c4 h1 h2 (by omega)
          rw [drain_some d1] at hm
          rcases List.mem_cons.1 hm with rfl | hm
          · exact .here hw (hP bs hw d2 d4)
          · exact .later hw (ih _ (by rw [List.length_drop]; omega) hm hP)
      · rw [drain_err (c2 h1 h2)] at hm; cases hm

open Wire in
theorem feedAll_contains (P : Bytes → Prop) (m : Message) (cs : List Bytes) (hm : m ∈ (feedAll Reader.init cs).1)
    (hP : ∀ x, Whole x (11 + field x 7 4) → m.header.service.toNat = field x 1 2 →
      m.payload = slice x 11 (field x 7 4) → P (x.take (11 + field x 7 4))) : Contains P cs.flatten := by
  have h0 : drain ⟨[], false⟩ = ([], ⟨[], false⟩) := drain_none (decode_short (by simp))
  have h1 := (feedAll_flatten cs [] h0).1
  rw [show (⟨[], false⟩ : Reader) = Reader.init from rfl] at h1
  rw [h1] at hm
  simp only [feed, Reader.init, Bool.false_eq_true, if_false, List.nil_append] at hm
  exact drain_contains P m _ _ (Nat.le_refl _) hm hP

theorem field_take (x : Bytes) (n i k : Nat) (h : i + k ≤ n) : field (x.take n) i k = field x i k := by
  unfold field slice
  rw [List.drop_take, List.take_take, Nat.min_eq_left (by omega)]

theorem redirect_bytes {m : Wire.Message} {a : Bytes} (h : redirectTarget m = some a) (x : Bytes)
    (hw : Whole x (11 + field x 7 4)) (hs : m.header.service.toNat = field x 1 2)
    (hp : m.payload = slice x 11 (field x 7 4)) : RedirectTo a (x.take (11 + field x 7 4)) := by
  unfold redirectTarget at h
  split at h
  · rename_i hc
    obtain ⟨h1, h2, h3, h4⟩ := hc
    injection h with h
    have hlen : m.payload.length = field x 7 4 := by
      rw [hp]; unfold slice; rw [List.length_take, List.length_drop]; have := hw.2.2.2; omega
    have hd : (x.take (11 + field x 7 4)).drop 11 = m.payload := by
      rw [hp]; unfold slice; rw [List.drop_take]; congr 1; omega
    refine ⟨?_, ?_, ?_⟩
    · rw [field_take _ _ _ _ (by omega), ← hs, h1]; rfl
    · have : field (x.take (11 + field x 7 4)) 13 2 = field m.payload 2 2 := by
        rw [← hd]; unfold field slice; rw [List.drop_drop]
      rw [this]; exact h3
    · rw [show (15 : Nat) = 11 + 4 from rfl, ← List.drop_drop, hd, ← h]
      have hne : m.payload.drop 4 ≠ [] := by
        intro he
        have := congrArg List.length he
        rw [List.length_drop, List.length_nil] at this
        omega
      have hz : (m.payload.drop 4).getLast hne = 0 := by
        rw [List.getLast_drop]
        rw [List.getLast?_eq_some_getLast (by intro he; rw [he] at h2; simp at h2)] at h4
        injection h4
      conv => lhs; rw [← List.dropLast_concat_getLast hne]
      rw [hz]
  · cases h

theorem received_mem {es : List NEv} {m : Wire.Message} {o : Out} (h : .ev (.got m o) ∈ es) : m ∈ received es :=
  List.mem_filterMap.2 ⟨_, h, rfl⟩

/-- A call that returns a redirect was connected, and the server has accepted the client and sent the redirect. -/
theorem returned_redirect {cfg : Cfg} (hd : cfg.diagnostic = false) {k : Call} (hf : k.Fits cfg) {a : Bytes} {d : Nat}
    (h : k.Returns cfg (.redirect a) d) :
    k.tls = true ∧ (∃ j t, Tls.connect k.net = (.connected j, t)) ∧
      Uplink.Answers Uplink.accepted k.chunks.flatten ∧ Contains (RedirectTo a) k.chunks.flatten := by
  unfold Call.Returns at h
  split at h
  · rename_i ht
    rcases hc : Tls.connect k.net with ⟨o, t⟩
    rw [hc] at h
    cases o with
    | connected j =>
      dsimp only at h
      have ho : (k.hist cfg).1 = .over (.redirect a) := by
        obtain ⟨-, h⟩ := h
        split at h
        · rename_i hh; injection h with h; rw [hh, h]
        · cases h
        · cases h
      obtain ⟨pre, e, he1, he2⟩ := Props.Client.C34_redirect_origin cfg k.env k.ops a (.inr ho)
      have he1 : (k.hist cfg).2 = pre ++ [e] := he1
      obtain ⟨m, rfl, hm⟩ : ∃ m, e = .ev (.got m .ok) ∧ redirectTarget m = some a := by
        unfold endOf at he2
        split at he2
        · rename_i m _
          refine ⟨m, rfl, ?_⟩
          cases hr : redirectTarget m with
          | some t => rw [hr] at he2; exact he2
          | none => rw [hr, hd] at he2; cases he2
        · cases he2
      have hin : .ev (.got m .ok) ∈ (k.hist cfg).2 := by rw [he1]; exact List.mem_append_right _ List.mem_cons_self
      have hmem := received_mem hin
      have hne : received (k.hist cfg).2 ≠ [] := fun h0 => by rw [h0] at hmem; cases hmem
      refine ⟨ht, ⟨j, t, rfl⟩, ?_, ?_⟩
      · obtain ⟨pre', m0, o0, rest, f1, f2, f3⟩ := Uplink.split_got _ hne
        have hfst := (Props.Client.C30_first_answer cfg k.env k.ops pre' rest m0 o0 f1 f2).1
        have hok : o0 = .ok := by
          apply Classical.byContradiction
          intro hne
          obtain ⟨_, e, -, -, g3⟩ := Props.Client.C30_refusal_ends cfg k.env k.ops m0 o0
            (by rw [show (hist cfg k.env k.ops).2 = _ from f1]; exact List.mem_append_right _ List.mem_cons_self) hne
          have g3 : (k.hist cfg).1 = .over (.error e) := g3
          rw [ho] at g3
          cases g3
        rw [hok] at hfst
        have hdec : ∃ x, Wire.decode 64 k.chunks.flatten = (.ok (some m0), x) := by
          obtain ⟨l, hl⟩ := hf.messages
          cases hr : received (k.hist cfg).2 with
          | nil => exact absurd hr hne
          | cons m' l' =>
            rw [hr] at f3 hl
            cases f3
            exact Uplink.first_decoded k.chunks m0 (l' ++ l) hl.symm
        obtain ⟨x, hdec⟩ := hdec
        exact (Uplink.first_answers hdec 0).1 (Uplink.outcome_ok m0 hfst.symm)
      · exact feedAll_contains _ m k.chunks (hf.messages.subset hmem) (fun x => redirect_bytes hm x)
    | _ => cases h.2
  · cases h

end Verif.Lemmas.Secure
