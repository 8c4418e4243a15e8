import Verif.Lemmas.Cubic
import Verif.Lemmas.Primes
import Verif.Base.Curves
/-!
# Facts about the supported curves (generated): prime field, no point of order two
-/
namespace Verif.Curves
open Verif.Primality

set_option maxRecDepth 100000

theorem p224_prime : p224.P.Prime := prime_26959946667150639794667015087019630673557916260026308143510066298881

theorem p224_order_prime : p224.N.Prime := prime_26959946667150639794667015087019625940457807714424391721682722368061

theorem p224_no_root (x : ZMod p224.P) : x ^ 3 + (26959946667150639794667015087019630673557916260026308143510066298878 : ℕ) * x + (p224.B : ℕ) ≠ 0 := by
  have : Fact p224.P.Prime := ⟨p224_prime⟩
  exact Cubic.no_root _ _ _ 224 ⟨1261710631285627074303005901530361786216288604486499842249704943048, 4447412785031720342771701563499662000791675740805516550464163634437, 9439789507511725786058244597052783711805086828869674293526675889612⟩ (by decide +kernel) x

theorem p256_prime : p256.P.Prime := prime_115792089210356248762697446949407573530086143415290314195533631308867097853951

theorem p256_order_prime : p256.N.Prime := prime_115792089210356248762697446949407573529996955224135760342422259061068512044369

theorem p256_no_root (x : ZMod p256.P) : x ^ 3 + (115792089210356248762697446949407573530086143415290314195533631308867097853948 : ℕ) * x + (p256.B : ℕ) ≠ 0 := by
  have : Fact p256.P.Prime := ⟨p256_prime⟩
  exact Cubic.no_root _ _ _ 256 ⟨76626890310466861426869089647039036757962535851890885406097439786770458211455, 74462945259064871768191128030512052509059297803194871526163573358218695456204, 34768139465301476436978405170953382516735956999154666452188405812258086013549⟩ (by decide +kernel) x

theorem p384_prime : p384.P.Prime := prime_39402006196394479212279040100143613805079739270465446667948293404245721771496870329047266088258938001861606973112319

theorem p384_order_prime : p384.N.Prime := prime_39402006196394479212279040100143613805079739270465446667946905279627659399113263569398956308152294913554433653942643

theorem p384_no_root (x : ZMod p384.P) : x ^ 3 + (39402006196394479212279040100143613805079739270465446667948293404245721771496870329047266088258938001861606973112316 : ℕ) * x + (p384.B : ℕ) ≠ 0 := by
  have : Fact p384.P.Prime := ⟨p384_prime⟩
  exact Cubic.no_root _ _ _ 384 ⟨23037766613497683937702734290281044719364893268180251583910224888989381657771069200037813904257325918671976092329602, 8235438212423615602427778915669574859600037698862346933589434399495169446996583974901273360826717582835190849638831, 12157362177932134139146813183752135342286725243554133716818896354380897714709611791313184492360272402950851405460538⟩ (by decide +kernel) x

theorem p521_prime : p521.P.Prime := prime_6864797660130609714981900799081393217269435300143305409394463459185543183397656052122559640661454554977296311391480858037121987999716643812574028291115057151

theorem p521_order_prime : p521.N.Prime := prime_6864797660130609714981900799081393217269435300143305409394463459185543183397655394245057746333217197532963996371363321113864768612440380340372808892707005449

theorem p521_no_root (x : ZMod p521.P) : x ^ 3 + (6864797660130609714981900799081393217269435300143305409394463459185543183397656052122559640661454554977296311391480858037121987999716643812574028291115057148 : ℕ) * x + (p521.B : ℕ) ≠ 0 := by
  have : Fact p521.P.Prime := ⟨p521_prime⟩
  exact Cubic.no_root _ _ _ 521 ⟨5556850081864827842302249485475501585472702946772625307642304195702912034363837867267334216347521692509406916620096684956176894315447091116492501000392161958, 2592645775458497527836362227091103884154287512470494672274301275565663408730650270660448980645397363205839490313252565391972848223674401530161387302727484004, 3919380404691066388712376322317341026252002696138380915147944189379687824774581460974855590730258562532022938584569429027963361353339635641909491533809725330⟩ (by decide +kernel) x

theorem secp256k1_prime : (secp256k1 "").P.Prime := prime_115792089237316195423570985008687907853269984665640564039457584007908834671663

theorem secp256k1_order_prime : (secp256k1 "").N.Prime := prime_115792089237316195423570985008687907852837564279074904382605163141518161494337

theorem secp256k1_no_root (x : ZMod (secp256k1 "").P) : x ^ 3 + (0 : ℕ) * x + ((secp256k1 "").B : ℕ) ≠ 0 := by
  have : Fact (secp256k1 "").P.Prime := ⟨secp256k1_prime⟩
  exact Cubic.no_root _ _ _ 256 ⟨0, 0, 46758632835564736012269203954919337884311706168562511263687580192619680188360⟩ (by decide +kernel) x

theorem sm2_prime : sm2.P.Prime := prime_115792089210356248756420345214020892766250353991924191454421193933289684991999

theorem sm2_order_prime : sm2.N.Prime := prime_115792089210356248756420345214020892766061623724957744567843809356293439045923

theorem sm2_no_root (x : ZMod sm2.P) : x ^ 3 + (115792089210356248756420345214020892766250353991924191454421193933289684991996 : ℕ) * x + (sm2.B : ℕ) ≠ 0 := by
  have : Fact sm2.P.Prime := ⟨sm2_prime⟩
  exact Cubic.no_root _ _ _ 256 ⟨106557179798172127300574136655860231618341984660982404479791742557385015191369, 84996361976986330174717689059298811725079258493181573729141059899368768071857, 35585630630933897022180037835235642085639273520660122098341330484096648951663⟩ (by decide +kernel) x

end Verif.Curves
