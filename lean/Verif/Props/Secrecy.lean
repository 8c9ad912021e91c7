import Verif.Lemmas.Secrecy
/-!
# C126: the identity of a client shows only in its REGISTER message
-/
namespace Verif.Props.Secrecy
open Verif Verif.Control Verif.Session Verif.Client Verif.Spec.Client Verif.Spec.Secrecy
open Verif.Props.Client (hist demoCfg demoEnv demoStart demoMsg demoAck)

theorem sameEnd_of_twin {g : Cfg} {m m' : Wire.Message} {b : Bool} {s s' : Conn} (h : TwinConn g m m' b s s') :
    SameEnd s s' := by
  cases s <;> cases s' <;> first | exact h | exact trivial

/-- **C126**: two clients with the same settings but different UUID, key, MAC address and extended information, seeing
the same server, local services, clock and service table, do exactly the same, whatever happens: everything they queue,
send to the server, write to local services, and how the connection ends. Only the REGISTER message differs, and each
client sends it at most once. So nothing else that leaves a client depends on its identity or key. -/
theorem C126_identity_only_in_register (cfg cfg' : Cfg) (env : Env) (ops : List COp) (h : SameSettings cfg cfg') :
    SameButOne env.now (register cfg env) (register cfg' env) (hist cfg env ops).2 (hist cfg' env ops).2 ∧
    SameEnd (hist cfg env ops).1 (hist cfg' env ops).1 := by
  have h0 : TwinConn cfg' (register cfg env).toArrow (register cfg' env).toArrow false (Conn.start cfg env).1
      (Conn.start cfg' env).1 := by
    refine ⟨h.2.symm, .inl ⟨rfl, [], rfl, ?_⟩⟩
    rw [new_eq, new_eq]
    simp only [put]
    rw [h.1]
  have e : (Conn.start cfg env).2 = [.ev (.queued env.now (register cfg env))] := rfl
  have e' : (Conn.start cfg' env).2 = [.ev (.queued env.now (register cfg' env))] := rfl
  unfold hist
  rw [e, e']
  rcases twin_run ops _ _ h0 with ⟨h1, h2⟩ | ⟨a, z, h1, h2, h3⟩
  · exact ⟨.inl ⟨_, rfl, by dsimp only; rw [h1]; rfl⟩, sameEnd_of_twin h2⟩
  · exact ⟨.inr ⟨a, z, by dsimp only; rw [h1]; rfl, by dsimp only; rw [h2]; rfl⟩, sameEnd_of_twin h3⟩

/-- **C126**: the key shows only in bytes 31 to 46 of the REGISTER message as it is sent: with another key, every other
byte of it is the same. -/
theorem C126_key_bytes (cfg cfg' : Cfg) (env : Env) (h : SameButKey cfg cfg') :
    DifferWithin 31 47 (register cfg env).toArrow.encode (register cfg' env).toArrow.encode ∧
    ((register cfg env).toArrow.encode.drop 31).take 16 = cfg.key.toList := by
  obtain ⟨⟨h1, h2⟩, h3, h4, h5⟩ := h
  have hl : cfg.key.toList.length = 16 := by simp
  have hu : cfg.uuid.toList.length = 16 := by simp
  obtain ⟨a, z, ha, hz⟩ : ∃ a z : Bytes, a.length = 31 ∧ ∀ c : Cfg, c.uuid = cfg.uuid → c.gateway = cfg.gateway →
      c.mac = cfg.mac → c.info = cfg.info → (register c env).toArrow.encode = a ++ (c.key.toList ++ z) := by
    let z : Bytes := cfg.mac.octets ++ be16 65535 ++ be32 (if cfg.gateway then 1 else 0) ++ cfg.info ++ [0] ++
      (SimpleTable.ofServices env.visible).encode
    let n : Nat := 36 + z.length
    refine ⟨(Wire.Header.new 0 0 (UInt32.ofNat n)).encode ++ (be16 0 ++ be16 2 ++ cfg.uuid.toList), z, ?_, ?_⟩
    · simp [Wire.Header.encode, be16, be32]
    · intro c f1 f2 f3 f4
      have hk : c.key.toList.length = 16 := by simp
      have hp : (register c env).encode = be16 0 ++ be16 2 ++ cfg.uuid.toList ++ (c.key.toList ++ z) := by
        simp only [register, ControlMessage.encode, Body.encode, f1, f2, f3, f4, z, List.append_assoc]
      have hn : (register c env).encode.length = n := by
        rw [hp]
        simp only [List.length_append, hk, hu, n, be16, List.length_cons, List.length_nil]
        omega
      show (Wire.Header.new 0 0 (UInt32.ofNat (register c env).encode.length)).encode ++ (register c env).encode = _
      rw [hn, hp]
      simp only [List.append_assoc]
  rw [hz cfg rfl rfl rfl rfl, hz cfg' h3.symm h1.symm h4.symm h5.symm]
  refine ⟨⟨by simp, ?_, ?_⟩, ?_⟩
  · rw [List.take_left' ha, List.take_left' ha]
  · rw [← List.append_assoc, ← List.append_assoc, List.drop_left' (by simp [ha]), List.drop_left' (by simp [ha])]
  · rw [List.drop_left' ha, List.take_left' hl]

/-- Another client: another UUID, key, MAC address and extended information. -/
def otherCfg : Cfg :=
  { uuid := Vector.replicate 16 3, key := Vector.replicate 16 4, mac := ⟨1, 2, 3, 4, 5, 6⟩, gateway := false,
    diagnostic := false, info := [97] }

/-- Non-vacuity of C126: the two clients register with different messages and, once accepted, answer a status request
in the same way. -/
example : SameSettings demoCfg otherCfg ∧
    (hist demoCfg (demoEnv 0 0) (demoStart ++ [.poll (.msg (demoEnv 2 0) (demoMsg 7 8 [])) []])).2.length = 6 ∧
    (hist demoCfg (demoEnv 0 0) (demoStart ++ [.poll (.msg (demoEnv 2 0) (demoMsg 7 8 [])) []])).2 ≠
      (hist otherCfg (demoEnv 0 0) (demoStart ++ [.poll (.msg (demoEnv 2 0) (demoMsg 7 8 [])) []])).2 ∧
    (hist demoCfg (demoEnv 0 0) (demoStart ++ [.poll (.msg (demoEnv 2 0) (demoMsg 7 8 [])) []])).2.drop 2 =
      (hist otherCfg (demoEnv 0 0) (demoStart ++ [.poll (.msg (demoEnv 2 0) (demoMsg 7 8 [])) []])).2.drop 2 := by
  refine ⟨⟨rfl, rfl⟩, ?_⟩
  decide +kernel

/-- Non-vacuity of C126: a client with another key registers with a different message. -/
example : SameButKey demoCfg { demoCfg with key := Vector.replicate 16 9 } ∧
    (register demoCfg (demoEnv 0 0)).toArrow.encode ≠
      (register { demoCfg with key := Vector.replicate 16 9 } (demoEnv 0 0)).toArrow.encode := by
  refine ⟨⟨⟨rfl, rfl⟩, rfl, rfl, rfl⟩, ?_⟩
  decide +kernel

/-- The connection goes on. -/
def isLive : Conn → Bool
  | .live _ => true
  | _ => false

/-- The `diagnostic` setting is not part of the identity: a client with it disconnects when it is accepted, so the
premise of C126 cannot be dropped. -/
example : isLive (hist demoCfg (demoEnv 0 0) (demoStart ++ [.poll .pending []])).1 = true ∧
    isLive (hist { demoCfg with diagnostic := true } (demoEnv 0 0) (demoStart ++ [.poll .pending []])).1 = false := by
  decide +kernel

end Verif.Props.Secrecy
