import Verif.Spec.Views

/-
What a Conn should report about itself, by the messages of the handshake.
-/

namespace Verif.Spec

open Verif Verif.Crypto Verif.Messages Verif.Handshake Verif.Machine

/-- `ConnectionState` (conn.go:250-258), the cipher suite by its entry in the table of suites; `none` is the zero value. -/
structure Report where
  state : Nat
  suite : Option Params
  nextProto : Bytes
  chains : List (List Bytes)
  certs : List Bytes
  psk : Bool
  early : Bool
  deriving DecidableEq

/-- Nothing is known but the state. -/
def Report.nothing (state : Nat) : Report := ⟨state, none, [], [], [], false, false⟩

/-- What both ends take from the server's first messages `ms`: the suite named in the ServerHello, whether it selects a PSK,
and the protocol and the acceptance of early data in EncryptedExtensions. `rest` follows them. -/
structure Negotiated (ms : List Msg) (psk : List Ext → Bool) (r : Report) (rest : List Msg) : Prop where
  told : ∃ retries msh mee sh n ee p, ms = retries ++ [msh, mee] ++ rest ∧
    (∀ m ∈ retries, letterOf m = .helloRetryRequest) ∧ msh.msgType = 2 ∧ ServerHello.unmarshal msh.body = .ok (sh, n) ∧
    mee.msgType = 8 ∧ unmarshalEE mee.body = .ok (ee, mee.body.length) ∧
    r.suite = some p ∧ p.suite = sh.suite.toNat ∧ r.psk = psk sh.exts ∧ NamesProtocol ee r.nextProto ∧ r.early = hasExt 42 ee

/-- The certificates in a Certificate message. -/
def HasCerts (E : Env) (m : Msg) (certs : List Bytes) : Prop :=
  m.msgType = 11 ∧ ∃ cm, CertificateMsg.unmarshal E.parses m.body = .ok (cm, m.body.length) ∧ certs = cm.list.map (·.1)

/-- What a client of configuration `cfg` should report, having received `got`. Unless a PSK is selected, a Certificate
message comes next, possibly after a CertificateRequest (13). -/
structure ClientTold (E : Env) (cfg : Config) (got : List Msg) (r : Report) : Prop where
  state : r.state = 8
  rest : ∃ rest, Negotiated got selectsFirstPsk r rest ∧
    ((r.psk = true ∧ r.certs = [] ∧ r.chains = []) ∨
      (r.psk = false ∧ ∃ req m rest', rest = req ++ m :: rest' ∧ (∀ m ∈ req, m.msgType = 13) ∧ HasCerts E m r.certs ∧
        ChainAccepted cfg r.certs r.chains))

/-- What a server should report, having received `got` and sent `out`: the certificates of the client are those in its
Certificate message, if there is one before its Finished. -/
structure ServerTold (E : Env) (got out : List Msg) (r : Report) : Prop where
  state : r.state = 18
  rest : ∃ rest, Negotiated out (hasExt 41) r rest
  certs : ∃ pre fin post, got = pre ++ fin :: post ∧ fin.msgType = 20 ∧ (∀ m ∈ pre, m.msgType ≠ 20) ∧
    (((∀ m ∈ pre, m.msgType ≠ 11) ∧ r.certs = []) ∨ ∃ m ∈ pre, HasCerts E m r.certs)

end Verif.Spec
