import Verif.Concrete.Crypto
import Verif.Concrete.Hashes
import Verif.Concrete.Server
import Verif.Lemmas.Asked
import Verif.Lemmas.Base58
import Verif.Lemmas.Bech32
import Verif.Lemmas.Bech32Errors
import Verif.Lemmas.Bech32Table
import Verif.Lemmas.Bytes
import Verif.Lemmas.CoinSelect
import Verif.Lemmas.Commit
import Verif.Lemmas.ConvertBits
import Verif.Lemmas.Create
import Verif.Lemmas.Curve
import Verif.Lemmas.CurvePrime
import Verif.Lemmas.Cut
import Verif.Lemmas.Decimal
import Verif.Lemmas.Ecdsa
import Verif.Lemmas.Errors
import Verif.Lemmas.Foreign
import Verif.Lemmas.Format
import Verif.Lemmas.Interp
import Verif.Lemmas.JsonGrammar
import Verif.Lemmas.JsonPrefix
import Verif.Lemmas.JsonSound
import Verif.Lemmas.JsonText
import Verif.Lemmas.Keygen
import Verif.Lemmas.Ledger
import Verif.Lemmas.Polymod
import Verif.Lemmas.Quotes
import Verif.Lemmas.Secp256k1
import Verif.Lemmas.Secret
import Verif.Lemmas.Sharing
import Verif.Lemmas.Sign
import Verif.Lemmas.SignMulti
import Verif.Lemmas.SignMultiTx
import Verif.Lemmas.SignSingle
import Verif.Lemmas.SignTwice
import Verif.Lemmas.Sort
import Verif.Lemmas.Tamper
import Verif.Lemmas.Threads
import Verif.Lemmas.Tx
import Verif.Lemmas.Utils
import Verif.Lemmas.Web
import Verif.Model.Base58
import Verif.Model.Basic
import Verif.Model.Bech32
import Verif.Model.Build
import Verif.Model.CoinSelect
import Verif.Model.Crypto
import Verif.Model.Curve
import Verif.Model.Decimal
import Verif.Model.Digits
import Verif.Model.Failover
import Verif.Model.Fees
import Verif.Model.Format
import Verif.Model.Json
import Verif.Model.JsonText
import Verif.Model.KeyApi
import Verif.Model.KeyThreads
import Verif.Model.KeyUse
import Verif.Model.Keygen
import Verif.Model.Keys
import Verif.Model.Node
import Verif.Model.NodeThreads
import Verif.Model.Program
import Verif.Model.Quotes
import Verif.Model.Rates
import Verif.Model.Send
import Verif.Model.Services
import Verif.Model.Sharing
import Verif.Model.Sign
import Verif.Model.Threads
import Verif.Model.Tx
import Verif.Model.Unspent
import Verif.Model.Utils
import Verif.Model.Wallet
import Verif.Model.Web
import Verif.Props.Accept
import Verif.Props.Address
import Verif.Props.Asked
import Verif.Props.BadKey
import Verif.Props.Base58
import Verif.Props.Bech32
import Verif.Props.Bech32Errors
import Verif.Props.Bech32Format
import Verif.Props.Bech32Insert
import Verif.Props.Build
import Verif.Props.Caches
import Verif.Props.CoinSelect
import Verif.Props.Construct
import Verif.Props.ContractLive
import Verif.Props.ConvertBits
import Verif.Props.Cosigned
import Verif.Props.Create
import Verif.Props.Curve
import Verif.Props.Cut
import Verif.Props.Digits
import Verif.Props.Ecdsa
import Verif.Props.Errors
import Verif.Props.Fee
import Verif.Props.FeeContract
import Verif.Props.FeeRate
import Verif.Props.Foreign
import Verif.Props.JsonGrammar
import Verif.Props.JsonPrefix
import Verif.Props.JsonSound
import Verif.Props.JsonText
import Verif.Props.KeyThreads
import Verif.Props.KeyThreadsPay
import Verif.Props.Keygen
import Verif.Props.KeygenNever
import Verif.Props.Keys
import Verif.Props.Ledger
import Verif.Props.LedgerContract
import Verif.Props.LedgerWeb
import Verif.Props.Live
import Verif.Props.Mistyped
import Verif.Props.Multisig
import Verif.Props.Newline
import Verif.Props.Node
import Verif.Props.NodeThreads
import Verif.Props.Ownership
import Verif.Props.Paging
import Verif.Props.Pool
import Verif.Props.Program
import Verif.Props.Quotes
import Verif.Props.Rates
import Verif.Props.Relevant
import Verif.Props.Replace
import Verif.Props.Secret
import Verif.Props.Send
import Verif.Props.Services
import Verif.Props.Sharing
import Verif.Props.Sign
import Verif.Props.SignMulti
import Verif.Props.Submit
import Verif.Props.Sweep
import Verif.Props.Tamper
import Verif.Props.Threads
import Verif.Props.Tx
import Verif.Props.Unspent
import Verif.Props.Utils
import Verif.Props.Wallet
import Verif.Props.Web
import Verif.Props.Wif
import Verif.Spec.Asked
import Verif.Spec.Base58
import Verif.Spec.Bech32
import Verif.Spec.Bits
import Verif.Spec.Caches
import Verif.Spec.Curve
import Verif.Spec.Decimal
import Verif.Spec.Device
import Verif.Spec.Digits
import Verif.Spec.Interp
import Verif.Spec.JsonGrammar
import Verif.Spec.JsonPython
import Verif.Spec.JsonText
import Verif.Spec.Ledger
import Verif.Spec.Program
import Verif.Spec.Quotes
import Verif.Spec.Replace
import Verif.Spec.Script
import Verif.Spec.Secp256k1
import Verif.Spec.Sharing
import Verif.Spec.Sighash
import Verif.Spec.Size
import Verif.Spec.Spend
import Verif.Spec.Submit
import Verif.Spec.Tamper
import Verif.Spec.Text
import Verif.Spec.Threads
import Verif.Spec.Tx
import Verif.Spec.Unspent
import Verif.Spec.Url
import Verif.Spec.Web
