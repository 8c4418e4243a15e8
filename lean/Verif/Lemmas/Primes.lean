import Verif.Lemmas.Primality
import Mathlib.Tactic.NormNum.Prime
/-!
# Primality certificates (generated)

Each prime above 10^9 has a Pocklington certificate checked by the kernel; smaller ones are checked by trial division.
-/
namespace Verif.Primality

set_option maxRecDepth 100000

theorem prime_2 : Nat.Prime 2 := by norm_num

theorem prime_274177 : Nat.Prime 274177 := by norm_num

theorem prime_26959946667150639794667015087019630673557916260026308143510066298881 : Nat.Prime 26959946667150639794667015087019630673557916260026308143510066298881 :=
  prime_of_cert _ [(2, 96, 11), (274177, 1, 2)]
    (by simp only [List.mem_cons, List.not_mem_nil, or_false, forall_eq_or_imp, forall_eq]
        exact ⟨prime_2, prime_274177⟩) (by decide +kernel)

theorem prime_704251 : Nat.Prime 704251 := by norm_num

theorem prime_78283 : Nat.Prime 78283 := by norm_num

theorem prime_46076956964474543 : Nat.Prime 46076956964474543 :=
  prime_of_cert _ [(704251, 1, 2), (78283, 1, 2)]
    (by simp only [List.mem_cons, List.not_mem_nil, or_false, forall_eq_or_imp, forall_eq]
        exact ⟨prime_704251, prime_78283⟩) (by decide +kernel)

theorem prime_3677 : Nat.Prime 3677 := by norm_num

theorem prime_197 : Nat.Prime 197 := by norm_num

theorem prime_66417393611 : Nat.Prime 66417393611 :=
  prime_of_cert _ [(3677, 1, 2), (197, 1, 2)]
    (by simp only [List.mem_cons, List.not_mem_nil, or_false, forall_eq_or_imp, forall_eq]
        exact ⟨prime_3677, prime_197⟩) (by decide +kernel)

theorem prime_11290956913871 : Nat.Prime 11290956913871 :=
  prime_of_cert _ [(66417393611, 1, 2)]
    (by simp only [List.mem_cons, List.not_mem_nil, or_false, forall_eq_or_imp, forall_eq]
        exact prime_66417393611) (by decide +kernel)

theorem prime_774023187263532362759620327192479577272145303 : Nat.Prime 774023187263532362759620327192479577272145303 :=
  prime_of_cert _ [(46076956964474543, 1, 2), (11290956913871, 1, 2)]
    (by simp only [List.mem_cons, List.not_mem_nil, or_false, forall_eq_or_imp, forall_eq]
        exact ⟨prime_46076956964474543, prime_11290956913871⟩) (by decide +kernel)

theorem prime_835945042244614951780389953367877943453916927241 : Nat.Prime 835945042244614951780389953367877943453916927241 :=
  prime_of_cert _ [(774023187263532362759620327192479577272145303, 1, 2)]
    (by simp only [List.mem_cons, List.not_mem_nil, or_false, forall_eq_or_imp, forall_eq]
        exact prime_774023187263532362759620327192479577272145303) (by decide +kernel)

theorem prime_115792089210356248762697446949407573530086143415290314195533631308867097853951 : Nat.Prime 115792089210356248762697446949407573530086143415290314195533631308867097853951 :=
  prime_of_cert _ [(835945042244614951780389953367877943453916927241, 1, 2)]
    (by simp only [List.mem_cons, List.not_mem_nil, or_false, forall_eq_or_imp, forall_eq]
        exact prime_835945042244614951780389953367877943453916927241) (by decide +kernel)

theorem prime_532247449 : Nat.Prime 532247449 := by norm_num

theorem prime_44925942675193 : Nat.Prime 44925942675193 :=
  prime_of_cert _ [(532247449, 1, 2)]
    (by simp only [List.mem_cons, List.not_mem_nil, or_false, forall_eq_or_imp, forall_eq]
        exact prime_532247449) (by decide +kernel)

theorem prime_35581458644053887931343 : Nat.Prime 35581458644053887931343 :=
  prime_of_cert _ [(44925942675193, 1, 2)]
    (by simp only [List.mem_cons, List.not_mem_nil, or_false, forall_eq_or_imp, forall_eq]
        exact prime_44925942675193) (by decide +kernel)

theorem prime_23964610537191310276190549303 : Nat.Prime 23964610537191310276190549303 :=
  prime_of_cert _ [(35581458644053887931343, 1, 2)]
    (by simp only [List.mem_cons, List.not_mem_nil, or_false, forall_eq_or_imp, forall_eq]
        exact prime_35581458644053887931343) (by decide +kernel)

theorem prime_862725979338887169942859774909 : Nat.Prime 862725979338887169942859774909 :=
  prime_of_cert _ [(23964610537191310276190549303, 1, 2)]
    (by simp only [List.mem_cons, List.not_mem_nil, or_false, forall_eq_or_imp, forall_eq]
        exact prime_23964610537191310276190549303) (by decide +kernel)

theorem prime_20705423504133292078628634597817 : Nat.Prime 20705423504133292078628634597817 :=
  prime_of_cert _ [(862725979338887169942859774909, 1, 2)]
    (by simp only [List.mem_cons, List.not_mem_nil, or_false, forall_eq_or_imp, forall_eq]
        exact prime_862725979338887169942859774909) (by decide +kernel)

theorem prime_413244619895455989650825325680172591660047 : Nat.Prime 413244619895455989650825325680172591660047 :=
  prime_of_cert _ [(20705423504133292078628634597817, 1, 2)]
    (by simp only [List.mem_cons, List.not_mem_nil, or_false, forall_eq_or_imp, forall_eq]
        exact prime_20705423504133292078628634597817) (by decide +kernel)

theorem prime_12397338596863679689524759770405177749801411 : Nat.Prime 12397338596863679689524759770405177749801411 :=
  prime_of_cert _ [(413244619895455989650825325680172591660047, 1, 2)]
    (by simp only [List.mem_cons, List.not_mem_nil, or_false, forall_eq_or_imp, forall_eq]
        exact prime_413244619895455989650825325680172591660047) (by decide +kernel)

theorem prime_246608641 : Nat.Prime 246608641 := by norm_num

theorem prime_105957871 : Nat.Prime 105957871 := by norm_num

theorem prime_529709925838459440593 : Nat.Prime 529709925838459440593 :=
  prime_of_cert _ [(246608641, 1, 2), (105957871, 1, 2)]
    (by simp only [List.mem_cons, List.not_mem_nil, or_false, forall_eq_or_imp, forall_eq]
        exact ⟨prime_246608641, prime_105957871⟩) (by decide +kernel)

theorem prime_19173790298027098165721053155794528970226934547887232785722672956982046098136719667167519737147526097 : Nat.Prime 19173790298027098165721053155794528970226934547887232785722672956982046098136719667167519737147526097 :=
  prime_of_cert _ [(12397338596863679689524759770405177749801411, 1, 2), (529709925838459440593, 1, 2)]
    (by simp only [List.mem_cons, List.not_mem_nil, or_false, forall_eq_or_imp, forall_eq]
        exact ⟨prime_12397338596863679689524759770405177749801411, prime_529709925838459440593⟩) (by decide +kernel)

theorem prime_39402006196394479212279040100143613805079739270465446667948293404245721771496870329047266088258938001861606973112319 : Nat.Prime 39402006196394479212279040100143613805079739270465446667948293404245721771496870329047266088258938001861606973112319 :=
  prime_of_cert _ [(19173790298027098165721053155794528970226934547887232785722672956982046098136719667167519737147526097, 1, 2)]
    (by simp only [List.mem_cons, List.not_mem_nil, or_false, forall_eq_or_imp, forall_eq]
        exact prime_19173790298027098165721053155794528970226934547887232785722672956982046098136719667167519737147526097) (by decide +kernel)

theorem prime_8620289 : Nat.Prime 8620289 := by norm_num

theorem prime_2534364967 : Nat.Prime 2534364967 :=
  prime_of_cert _ [(8620289, 1, 2)]
    (by simp only [List.mem_cons, List.not_mem_nil, or_false, forall_eq_or_imp, forall_eq]
        exact prime_8620289) (by decide +kernel)

theorem prime_145295143558111 : Nat.Prime 145295143558111 :=
  prime_of_cert _ [(2534364967, 1, 3)]
    (by simp only [List.mem_cons, List.not_mem_nil, or_false, forall_eq_or_imp, forall_eq]
        exact prime_2534364967) (by decide +kernel)

theorem prime_23609 : Nat.Prime 23609 := by norm_num

theorem prime_1433 : Nat.Prime 1433 := by norm_num

theorem prime_108140989558681 : Nat.Prime 108140989558681 :=
  prime_of_cert _ [(23609, 1, 3), (1433, 1, 3)]
    (by simp only [List.mem_cons, List.not_mem_nil, or_false, forall_eq_or_imp, forall_eq]
        exact ⟨prime_23609, prime_1433⟩) (by decide +kernel)

theorem prime_308761441 : Nat.Prime 308761441 := by norm_num

theorem prime_34110701 : Nat.Prime 34110701 := by norm_num

theorem prime_7623851 : Nat.Prime 7623851 := by norm_num

theorem prime_858001 : Nat.Prime 858001 := by norm_num

theorem prime_409891 : Nat.Prime 409891 := by norm_num

theorem prime_61681 : Nat.Prime 61681 := by norm_num

theorem prime_51481 : Nat.Prime 51481 := by norm_num

theorem prime_8191 : Nat.Prime 8191 := by norm_num

theorem prime_2731 : Nat.Prime 2731 := by norm_num

theorem prime_6864797660130609714981900799081393217269435300143305409394463459185543183397656052122559640661454554977296311391480858037121987999716643812574028291115057151 : Nat.Prime 6864797660130609714981900799081393217269435300143305409394463459185543183397656052122559640661454554977296311391480858037121987999716643812574028291115057151 :=
  prime_of_cert _ [(145295143558111, 1, 3), (108140989558681, 1, 3), (308761441, 1, 3), (34110701, 1, 3), (7623851, 1, 3), (858001, 1, 3), (409891, 1, 3), (61681, 1, 3), (51481, 1, 3), (8191, 1, 3), (2731, 1, 3)]
    (by simp only [List.mem_cons, List.not_mem_nil, or_false, forall_eq_or_imp, forall_eq]
        exact ⟨prime_145295143558111, prime_108140989558681, prime_308761441, prime_34110701, prime_7623851, prime_858001, prime_409891, prime_61681, prime_51481, prime_8191, prime_2731⟩) (by decide +kernel)

theorem prime_96557 : Nat.Prime 96557 := by norm_num

theorem prime_41201 : Nat.Prime 41201 := by norm_num

theorem prime_4423 : Nat.Prime 4423 := by norm_num

theorem prime_2657 : Nat.Prime 2657 := by norm_num

theorem prime_1627 : Nat.Prime 1627 := by norm_num

theorem prime_255515944373312847190720520512484175977 : Nat.Prime 255515944373312847190720520512484175977 :=
  prime_of_cert _ [(96557, 1, 2), (41201, 1, 2), (4423, 1, 2), (2657, 1, 2), (1627, 1, 2)]
    (by simp only [List.mem_cons, List.not_mem_nil, or_false, forall_eq_or_imp, forall_eq]
        exact ⟨prime_96557, prime_41201, prime_4423, prime_2657, prime_1627⟩) (by decide +kernel)

theorem prime_205115282021455665897114700593932402728804164701536103180137503955397371 : Nat.Prime 205115282021455665897114700593932402728804164701536103180137503955397371 :=
  prime_of_cert _ [(255515944373312847190720520512484175977, 1, 2)]
    (by simp only [List.mem_cons, List.not_mem_nil, or_false, forall_eq_or_imp, forall_eq]
        exact prime_255515944373312847190720520512484175977) (by decide +kernel)

theorem prime_115792089237316195423570985008687907853269984665640564039457584007908834671663 : Nat.Prime 115792089237316195423570985008687907853269984665640564039457584007908834671663 :=
  prime_of_cert _ [(205115282021455665897114700593932402728804164701536103180137503955397371, 1, 2)]
    (by simp only [List.mem_cons, List.not_mem_nil, or_false, forall_eq_or_imp, forall_eq]
        exact prime_205115282021455665897114700593932402728804164701536103180137503955397371) (by decide +kernel)

theorem prime_363761 : Nat.Prime 363761 := by norm_num

theorem prime_34511 : Nat.Prime 34511 := by norm_num

theorem prime_4773264379806847 : Nat.Prime 4773264379806847 :=
  prime_of_cert _ [(363761, 1, 2), (34511, 1, 2)]
    (by simp only [List.mem_cons, List.not_mem_nil, or_false, forall_eq_or_imp, forall_eq]
        exact ⟨prime_363761, prime_34511⟩) (by decide +kernel)

theorem prime_6158099 : Nat.Prime 6158099 := by norm_num

theorem prime_66013261729388519804782124120027 : Nat.Prime 66013261729388519804782124120027 :=
  prime_of_cert _ [(4773264379806847, 1, 2), (6158099, 1, 2)]
    (by simp only [List.mem_cons, List.not_mem_nil, or_false, forall_eq_or_imp, forall_eq]
        exact ⟨prime_4773264379806847, prime_6158099⟩) (by decide +kernel)

theorem prime_8214737 : Nat.Prime 8214737 := by norm_num

theorem prime_2473 : Nat.Prime 2473 := by norm_num

theorem prime_417514796639753 : Nat.Prime 417514796639753 :=
  prime_of_cert _ [(8214737, 1, 2), (2473, 1, 2)]
    (by simp only [List.mem_cons, List.not_mem_nil, or_false, forall_eq_or_imp, forall_eq]
        exact ⟨prime_8214737, prime_2473⟩) (by decide +kernel)

theorem prime_115792089210356248756420345214020892766250353991924191454421193933289684991999 : Nat.Prime 115792089210356248756420345214020892766250353991924191454421193933289684991999 :=
  prime_of_cert _ [(66013261729388519804782124120027, 1, 2), (417514796639753, 1, 2)]
    (by simp only [List.mem_cons, List.not_mem_nil, or_false, forall_eq_or_imp, forall_eq]
        exact ⟨prime_66013261729388519804782124120027, prime_417514796639753⟩) (by decide +kernel)

theorem prime_821796863 : Nat.Prime 821796863 := by norm_num

theorem prime_432621809776543 : Nat.Prime 432621809776543 :=
  prime_of_cert _ [(821796863, 1, 2)]
    (by simp only [List.mem_cons, List.not_mem_nil, or_false, forall_eq_or_imp, forall_eq]
        exact prime_821796863) (by decide +kernel)

theorem prime_136401162692544977256234449 : Nat.Prime 136401162692544977256234449 :=
  prime_of_cert _ [(432621809776543, 1, 2)]
    (by simp only [List.mem_cons, List.not_mem_nil, or_false, forall_eq_or_imp, forall_eq]
        exact prime_432621809776543) (by decide +kernel)

theorem prime_34646440928557194402992574983797 : Nat.Prime 34646440928557194402992574983797 :=
  prime_of_cert _ [(136401162692544977256234449, 1, 2)]
    (by simp only [List.mem_cons, List.not_mem_nil, or_false, forall_eq_or_imp, forall_eq]
        exact prime_136401162692544977256234449) (by decide +kernel)

theorem prime_375503554633724504423937478103159147573209 : Nat.Prime 375503554633724504423937478103159147573209 :=
  prime_of_cert _ [(34646440928557194402992574983797, 1, 2)]
    (by simp only [List.mem_cons, List.not_mem_nil, or_false, forall_eq_or_imp, forall_eq]
        exact prime_34646440928557194402992574983797) (by decide +kernel)

theorem prime_50520606258875818707470860153287666700917696099933389351507 : Nat.Prime 50520606258875818707470860153287666700917696099933389351507 :=
  prime_of_cert _ [(375503554633724504423937478103159147573209, 1, 2)]
    (by simp only [List.mem_cons, List.not_mem_nil, or_false, forall_eq_or_imp, forall_eq]
        exact prime_375503554633724504423937478103159147573209) (by decide +kernel)

theorem prime_26959946667150639794667015087019625940457807714424391721682722368061 : Nat.Prime 26959946667150639794667015087019625940457807714424391721682722368061 :=
  prime_of_cert _ [(50520606258875818707470860153287666700917696099933389351507, 1, 2)]
    (by simp only [List.mem_cons, List.not_mem_nil, or_false, forall_eq_or_imp, forall_eq]
        exact prime_50520606258875818707470860153287666700917696099933389351507) (by decide +kernel)

theorem prime_191039911 : Nat.Prime 191039911 := by norm_num

theorem prime_3023 : Nat.Prime 3023 := by norm_num

theorem prime_208150935158385979 : Nat.Prime 208150935158385979 :=
  prime_of_cert _ [(191039911, 1, 2), (3023, 1, 2)]
    (by simp only [List.mem_cons, List.not_mem_nil, or_false, forall_eq_or_imp, forall_eq]
        exact ⟨prime_191039911, prime_3023⟩) (by decide +kernel)

theorem prime_2624747550333869278416773953 : Nat.Prime 2624747550333869278416773953 :=
  prime_of_cert _ [(208150935158385979, 1, 2)]
    (by simp only [List.mem_cons, List.not_mem_nil, or_false, forall_eq_or_imp, forall_eq]
        exact prime_208150935158385979) (by decide +kernel)

theorem prime_3969899 : Nat.Prime 3969899 := by norm_num

theorem prime_1002328039319 : Nat.Prime 1002328039319 :=
  prime_of_cert _ [(3969899, 1, 2)]
    (by simp only [List.mem_cons, List.not_mem_nil, or_false, forall_eq_or_imp, forall_eq]
        exact prime_3969899) (by decide +kernel)

theorem prime_115792089210356248762697446949407573529996955224135760342422259061068512044369 : Nat.Prime 115792089210356248762697446949407573529996955224135760342422259061068512044369 :=
  prime_of_cert _ [(2624747550333869278416773953, 1, 2), (1002328039319, 1, 2)]
    (by simp only [List.mem_cons, List.not_mem_nil, or_false, forall_eq_or_imp, forall_eq]
        exact ⟨prime_2624747550333869278416773953, prime_1002328039319⟩) (by decide +kernel)

theorem prime_272109983 : Nat.Prime 272109983 := by norm_num

theorem prime_228572385721 : Nat.Prime 228572385721 :=
  prime_of_cert _ [(272109983, 1, 2)]
    (by simp only [List.mem_cons, List.not_mem_nil, or_false, forall_eq_or_imp, forall_eq]
        exact prime_272109983) (by decide +kernel)

theorem prime_23314383343543 : Nat.Prime 23314383343543 :=
  prime_of_cert _ [(228572385721, 1, 2)]
    (by simp only [List.mem_cons, List.not_mem_nil, or_false, forall_eq_or_imp, forall_eq]
        exact prime_228572385721) (by decide +kernel)

theorem prime_426632512014427833817 : Nat.Prime 426632512014427833817 :=
  prime_of_cert _ [(23314383343543, 1, 2)]
    (by simp only [List.mem_cons, List.not_mem_nil, or_false, forall_eq_or_imp, forall_eq]
        exact prime_23314383343543) (by decide +kernel)

theorem prime_1495199339761412565498084319 : Nat.Prime 1495199339761412565498084319 :=
  prime_of_cert _ [(426632512014427833817, 1, 2)]
    (by simp only [List.mem_cons, List.not_mem_nil, or_false, forall_eq_or_imp, forall_eq]
        exact prime_426632512014427833817) (by decide +kernel)

theorem prime_17942392077136950785977011829 : Nat.Prime 17942392077136950785977011829 :=
  prime_of_cert _ [(1495199339761412565498084319, 1, 2)]
    (by simp only [List.mem_cons, List.not_mem_nil, or_false, forall_eq_or_imp, forall_eq]
        exact prime_1495199339761412565498084319) (by decide +kernel)

theorem prime_9863677 : Nat.Prime 9863677 := by norm_num

theorem prime_37344768852931 : Nat.Prime 37344768852931 :=
  prime_of_cert _ [(9863677, 1, 2)]
    (by simp only [List.mem_cons, List.not_mem_nil, or_false, forall_eq_or_imp, forall_eq]
        exact prime_9863677) (by decide +kernel)

theorem prime_55942463741690639 : Nat.Prime 55942463741690639 :=
  prime_of_cert _ [(37344768852931, 1, 2)]
    (by simp only [List.mem_cons, List.not_mem_nil, or_false, forall_eq_or_imp, forall_eq]
        exact prime_37344768852931) (by decide +kernel)

theorem prime_1059392654943455286185473617842338478315215895509773412096307 : Nat.Prime 1059392654943455286185473617842338478315215895509773412096307 :=
  prime_of_cert _ [(17942392077136950785977011829, 1, 2), (55942463741690639, 1, 2)]
    (by simp only [List.mem_cons, List.not_mem_nil, or_false, forall_eq_or_imp, forall_eq]
        exact ⟨prime_17942392077136950785977011829, prime_55942463741690639⟩) (by decide +kernel)

theorem prime_3055465788140352002733946906144561090641249606160407884365391979704929268480326390471 : Nat.Prime 3055465788140352002733946906144561090641249606160407884365391979704929268480326390471 :=
  prime_of_cert _ [(1059392654943455286185473617842338478315215895509773412096307, 1, 2)]
    (by simp only [List.mem_cons, List.not_mem_nil, or_false, forall_eq_or_imp, forall_eq]
        exact prime_1059392654943455286185473617842338478315215895509773412096307) (by decide +kernel)

theorem prime_39402006196394479212279040100143613805079739270465446667946905279627659399113263569398956308152294913554433653942643 : Nat.Prime 39402006196394479212279040100143613805079739270465446667946905279627659399113263569398956308152294913554433653942643 :=
  prime_of_cert _ [(3055465788140352002733946906144561090641249606160407884365391979704929268480326390471, 1, 2)]
    (by simp only [List.mem_cons, List.not_mem_nil, or_false, forall_eq_or_imp, forall_eq]
        exact prime_3055465788140352002733946906144561090641249606160407884365391979704929268480326390471) (by decide +kernel)

theorem prime_1627771 : Nat.Prime 1627771 := by norm_num

theorem prime_297159362677 : Nat.Prime 297159362677 :=
  prime_of_cert _ [(1627771, 1, 2)]
    (by simp only [List.mem_cons, List.not_mem_nil, or_false, forall_eq_or_imp, forall_eq]
        exact prime_1627771) (by decide +kernel)

theorem prime_545358713 : Nat.Prime 545358713 := by norm_num

theorem prime_29047611873442575647497758179 : Nat.Prime 29047611873442575647497758179 :=
  prime_of_cert _ [(297159362677, 1, 2), (545358713, 1, 2)]
    (by simp only [List.mem_cons, List.not_mem_nil, or_false, forall_eq_or_imp, forall_eq]
        exact ⟨prime_297159362677, prime_545358713⟩) (by decide +kernel)

theorem prime_341948486974166000522343609283189 : Nat.Prime 341948486974166000522343609283189 :=
  prime_of_cert _ [(29047611873442575647497758179, 1, 2)]
    (by simp only [List.mem_cons, List.not_mem_nil, or_false, forall_eq_or_imp, forall_eq]
        exact prime_29047611873442575647497758179) (by decide +kernel)

theorem prime_44706919 : Nat.Prime 44706919 := by norm_num

theorem prime_120233 : Nat.Prime 120233 := by norm_num

theorem prime_174723607534414371449 : Nat.Prime 174723607534414371449 :=
  prime_of_cert _ [(44706919, 1, 2), (120233, 1, 2)]
    (by simp only [List.mem_cons, List.not_mem_nil, or_false, forall_eq_or_imp, forall_eq]
        exact ⟨prime_44706919, prime_120233⟩) (by decide +kernel)

theorem prime_115792089237316195423570985008687907852837564279074904382605163141518161494337 : Nat.Prime 115792089237316195423570985008687907852837564279074904382605163141518161494337 :=
  prime_of_cert _ [(341948486974166000522343609283189, 1, 2), (174723607534414371449, 1, 2)]
    (by simp only [List.mem_cons, List.not_mem_nil, or_false, forall_eq_or_imp, forall_eq]
        exact ⟨prime_341948486974166000522343609283189, prime_174723607534414371449⟩) (by decide +kernel)

theorem prime_9061163 : Nat.Prime 9061163 := by norm_num

theorem prime_5636460199499 : Nat.Prime 5636460199499 :=
  prime_of_cert _ [(9061163, 1, 2)]
    (by simp only [List.mem_cons, List.not_mem_nil, or_false, forall_eq_or_imp, forall_eq]
        exact prime_9061163) (by decide +kernel)

theorem prime_101456283590983 : Nat.Prime 101456283590983 :=
  prime_of_cert _ [(5636460199499, 1, 2)]
    (by simp only [List.mem_cons, List.not_mem_nil, or_false, forall_eq_or_imp, forall_eq]
        exact prime_5636460199499) (by decide +kernel)

theorem prime_84163 : Nat.Prime 84163 := by norm_num

theorem prime_2566129871 : Nat.Prime 2566129871 :=
  prime_of_cert _ [(84163, 1, 2)]
    (by simp only [List.mem_cons, List.not_mem_nil, or_false, forall_eq_or_imp, forall_eq]
        exact prime_84163) (by decide +kernel)

theorem prime_18120927127286907576013935251791662753637 : Nat.Prime 18120927127286907576013935251791662753637 :=
  prime_of_cert _ [(101456283590983, 1, 2), (2566129871, 1, 2)]
    (by simp only [List.mem_cons, List.not_mem_nil, or_false, forall_eq_or_imp, forall_eq]
        exact ⟨prime_101456283590983, prime_2566129871⟩) (by decide +kernel)

theorem prime_125197554539772723432468576818475380947471091418362477724521 : Nat.Prime 125197554539772723432468576818475380947471091418362477724521 :=
  prime_of_cert _ [(18120927127286907576013935251791662753637, 1, 2)]
    (by simp only [List.mem_cons, List.not_mem_nil, or_false, forall_eq_or_imp, forall_eq]
        exact prime_18120927127286907576013935251791662753637) (by decide +kernel)

theorem prime_115792089210356248756420345214020892766061623724957744567843809356293439045923 : Nat.Prime 115792089210356248756420345214020892766061623724957744567843809356293439045923 :=
  prime_of_cert _ [(125197554539772723432468576818475380947471091418362477724521, 1, 2)]
    (by simp only [List.mem_cons, List.not_mem_nil, or_false, forall_eq_or_imp, forall_eq]
        exact prime_125197554539772723432468576818475380947471091418362477724521) (by decide +kernel)

theorem prime_19353437 : Nat.Prime 19353437 := by norm_num

theorem prime_777241 : Nat.Prime 777241 := by norm_num

theorem prime_60018716061994831 : Nat.Prime 60018716061994831 :=
  prime_of_cert _ [(19353437, 1, 2), (777241, 1, 2)]
    (by simp only [List.mem_cons, List.not_mem_nil, or_false, forall_eq_or_imp, forall_eq]
        exact ⟨prime_19353437, prime_777241⟩) (by decide +kernel)

theorem prime_4239602065187190872179 : Nat.Prime 4239602065187190872179 :=
  prime_of_cert _ [(60018716061994831, 1, 2)]
    (by simp only [List.mem_cons, List.not_mem_nil, or_false, forall_eq]
        exact prime_60018716061994831) (by decide +kernel)

theorem prime_7427946019382605513260578233234962521 : Nat.Prime 7427946019382605513260578233234962521 :=
  prime_of_cert _ [(4239602065187190872179, 1, 2)]
    (by simp only [List.mem_cons, List.not_mem_nil, or_false, forall_eq]
        exact prime_4239602065187190872179) (by decide +kernel)

theorem prime_15994076126984618329123851002118749004583184815459808099 : Nat.Prime 15994076126984618329123851002118749004583184815459808099 :=
  prime_of_cert _ [(7427946019382605513260578233234962521, 1, 2)]
    (by simp only [List.mem_cons, List.not_mem_nil, or_false, forall_eq]
        exact prime_7427946019382605513260578233234962521) (by decide +kernel)

theorem prime_3636410625392624440351547907325502812950802686368714273274221490761556277859337865760708490235892541081304511 : Nat.Prime 3636410625392624440351547907325502812950802686368714273274221490761556277859337865760708490235892541081304511 :=
  prime_of_cert _ [(15994076126984618329123851002118749004583184815459808099, 1, 2)]
    (by simp only [List.mem_cons, List.not_mem_nil, or_false, forall_eq]
        exact prime_15994076126984618329123851002118749004583184815459808099) (by decide +kernel)

theorem prime_3615194794881930010216942559103847593050265703173292383701371712350878926821661243755933835426896058418509759880171943 : Nat.Prime 3615194794881930010216942559103847593050265703173292383701371712350878926821661243755933835426896058418509759880171943 :=
  prime_of_cert _ [(3636410625392624440351547907325502812950802686368714273274221490761556277859337865760708490235892541081304511, 1, 2)]
    (by simp only [List.mem_cons, List.not_mem_nil, or_false, forall_eq]
        exact prime_3636410625392624440351547907325502812950802686368714273274221490761556277859337865760708490235892541081304511) (by decide +kernel)

theorem prime_6864797660130609714981900799081393217269435300143305409394463459185543183397655394245057746333217197532963996371363321113864768612440380340372808892707005449 : Nat.Prime 6864797660130609714981900799081393217269435300143305409394463459185543183397655394245057746333217197532963996371363321113864768612440380340372808892707005449 :=
  prime_of_cert _ [(3615194794881930010216942559103847593050265703173292383701371712350878926821661243755933835426896058418509759880171943, 1, 2)]
    (by simp only [List.mem_cons, List.not_mem_nil, or_false, forall_eq]
        exact prime_3615194794881930010216942559103847593050265703173292383701371712350878926821661243755933835426896058418509759880171943) (by decide +kernel)


end Verif.Primality
