import Verif.Proofs.ModArith
/-!
Primality of the field and group orders of P-256, P-384 and Ed25519, by Lucas and Pocklington certificates.
Each line below a final one proves a prime factor it needs.
-/
namespace Verif.Primes
open ModArith

theorem prime_204061199 : Nat.Prime 204061199 :=
  lucas_cert 11 [(2, 1), (11, 1), (23, 1), (107, 1), (3769, 1)]
    (by
      simp only [List.forall_mem_cons, List.not_mem_nil, false_implies, implies_true, and_true]
      refine ⟨?_, ?_, ?_, ?_, ?_⟩
      · norm_num
      · norm_num
      · norm_num
      · norm_num
      · norm_num)
    (by decide +kernel)
theorem prime_34282281433 : Nat.Prime 34282281433 :=
  pock_cert 204061199 2 (prime_204061199) (by decide +kernel)
theorem prime_66417393611 : Nat.Prime 66417393611 :=
  lucas_cert 6 [(2, 1), (5, 1), (53, 1), (173, 1), (197, 1), (3677, 1)]
    (by
      simp only [List.forall_mem_cons, List.not_mem_nil, false_implies, implies_true, and_true]
      refine ⟨?_, ?_, ?_, ?_, ?_, ?_⟩
      · norm_num
      · norm_num
      · norm_num
      · norm_num
      · norm_num
      · norm_num)
    (by decide +kernel)
theorem prime_11290956913871 : Nat.Prime 11290956913871 :=
  pock_cert 66417393611 2 (prime_66417393611) (by decide +kernel)
theorem prime_46076956964474543 : Nat.Prime 46076956964474543 :=
  lucas_cert 5 [(2, 1), (23, 1), (18169, 1), (78283, 1), (704251, 1)]
    (by
      simp only [List.forall_mem_cons, List.not_mem_nil, false_implies, implies_true, and_true]
      refine ⟨?_, ?_, ?_, ?_, ?_⟩
      · norm_num
      · norm_num
      · norm_num
      · norm_num
      · norm_num)
    (by decide +kernel)
theorem prime_774023187263532362759620327192479577272145303 : Nat.Prime 774023187263532362759620327192479577272145303 :=
  lucas_cert 3 [(2, 1), (3, 2), (2411, 1), (34282281433, 1), (11290956913871, 1), (46076956964474543, 1)]
    (by
      simp only [List.forall_mem_cons, List.not_mem_nil, false_implies, implies_true, and_true]
      refine ⟨?_, ?_, ?_, ?_, ?_, ?_⟩
      · norm_num
      · norm_num
      · norm_num
      · exact prime_34282281433
      · exact prime_11290956913871
      · exact prime_46076956964474543)
    (by decide +kernel)
theorem prime_835945042244614951780389953367877943453916927241 : Nat.Prime 835945042244614951780389953367877943453916927241 :=
  pock_cert 774023187263532362759620327192479577272145303 2 (prime_774023187263532362759620327192479577272145303) (by decide +kernel)
theorem prime_p256 : Nat.Prime 115792089210356248762697446949407573530086143415290314195533631308867097853951 :=
  pock_cert 835945042244614951780389953367877943453916927241 2 (prime_835945042244614951780389953367877943453916927241) (by decide +kernel)
theorem prime_9350987 : Nat.Prime 9350987 :=
  lucas_cert 2 [(2, 1), (17, 1), (229, 1), (1201, 1)]
    (by
      simp only [List.forall_mem_cons, List.not_mem_nil, false_implies, implies_true, and_true]
      refine ⟨?_, ?_, ?_, ?_⟩
      · norm_num
      · norm_num
      · norm_num
      · norm_num)
    (by decide +kernel)
theorem prime_187019741 : Nat.Prime 187019741 :=
  pock_cert 9350987 2 (prime_9350987) (by decide +kernel)
theorem prime_311245691 : Nat.Prime 311245691 :=
  lucas_cert 2 [(2, 1), (5, 1), (7, 1), (17, 1), (29, 2), (311, 1)]
    (by
      simp only [List.forall_mem_cons, List.not_mem_nil, false_implies, implies_true, and_true]
      refine ⟨?_, ?_, ?_, ?_, ?_, ?_⟩
      · norm_num
      · norm_num
      · norm_num
      · norm_num
      · norm_num
      · norm_num)
    (by decide +kernel)
theorem prime_622491383 : Nat.Prime 622491383 :=
  pock_cert 311245691 2 (prime_311245691) (by decide +kernel)
theorem prime_3969899 : Nat.Prime 3969899 :=
  pock_cert 104471 2 (by norm_num) (by decide +kernel)
theorem prime_1002328039319 : Nat.Prime 1002328039319 :=
  pock_cert 3969899 2 (prime_3969899) (by decide +kernel)
theorem prime_191039911 : Nat.Prime 191039911 :=
  pock_cert 155317 2 (by norm_num) (by decide +kernel)
theorem prime_208150935158385979 : Nat.Prime 208150935158385979 :=
  lucas_cert 2 [(2, 1), (3, 1), (11, 1), (43, 1), (127, 1), (3023, 1), (191039911, 1)]
    (by
      simp only [List.forall_mem_cons, List.not_mem_nil, false_implies, implies_true, and_true]
      refine ⟨?_, ?_, ?_, ?_, ?_, ?_, ?_⟩
      · norm_num
      · norm_num
      · norm_num
      · norm_num
      · norm_num
      · norm_num
      · exact prime_191039911)
    (by decide +kernel)
theorem prime_2624747550333869278416773953 : Nat.Prime 2624747550333869278416773953 :=
  pock_cert 208150935158385979 2 (prime_208150935158385979) (by decide +kernel)
theorem prime_n256 : Nat.Prime 115792089210356248762697446949407573529996955224135760342422259061068512044369 :=
  lucas_cert 7 [(2, 4), (3, 1), (71, 1), (131, 1), (373, 1), (3407, 1), (17449, 1), (38189, 1), (187019741, 1), (622491383, 1), (1002328039319, 1), (2624747550333869278416773953, 1)]
    (by
      simp only [List.forall_mem_cons, List.not_mem_nil, false_implies, implies_true, and_true]
      refine ⟨?_, ?_, ?_, ?_, ?_, ?_, ?_, ?_, ?_, ?_, ?_, ?_⟩
      · norm_num
      · norm_num
      · norm_num
      · norm_num
      · norm_num
      · norm_num
      · norm_num
      · norm_num
      · exact prime_187019741
      · exact prime_622491383
      · exact prime_1002328039319
      · exact prime_2624747550333869278416773953)
    (by decide +kernel)
theorem prime_513928823 : Nat.Prime 513928823 :=
  lucas_cert 5 [(2, 1), (11, 1), (59, 1), (599, 1), (661, 1)]
    (by
      simp only [List.forall_mem_cons, List.not_mem_nil, false_implies, implies_true, and_true]
      refine ⟨?_, ?_, ?_, ?_, ?_⟩
      · norm_num
      · norm_num
      · norm_num
      · norm_num
      · norm_num)
    (by decide +kernel)
theorem prime_53448597593 : Nat.Prime 53448597593 :=
  pock_cert 513928823 2 (prime_513928823) (by decide +kernel)
theorem prime_1357291859799823621 : Nat.Prime 1357291859799823621 :=
  pock_cert 53448597593 2 (prime_53448597593) (by decide +kernel)
theorem prime_105957871 : Nat.Prime 105957871 :=
  lucas_cert 3 [(2, 1), (3, 1), (5, 1), (19, 1), (211, 1), (881, 1)]
    (by
      simp only [List.forall_mem_cons, List.not_mem_nil, false_implies, implies_true, and_true]
      refine ⟨?_, ?_, ?_, ?_, ?_, ?_⟩
      · norm_num
      · norm_num
      · norm_num
      · norm_num
      · norm_num
      · norm_num)
    (by decide +kernel)
theorem prime_246608641 : Nat.Prime 246608641 :=
  pock_cert 21407 2 (by norm_num) (by decide +kernel)
theorem prime_529709925838459440593 : Nat.Prime 529709925838459440593 :=
  lucas_cert 3 [(2, 4), (7, 1), (181, 1), (105957871, 1), (246608641, 1)]
    (by
      simp only [List.forall_mem_cons, List.not_mem_nil, false_implies, implies_true, and_true]
      refine ⟨?_, ?_, ?_, ?_, ?_⟩
      · norm_num
      · norm_num
      · norm_num
      · exact prime_105957871
      · exact prime_246608641)
    (by decide +kernel)
theorem prime_532247449 : Nat.Prime 532247449 :=
  pock_cert 363557 2 (by norm_num) (by decide +kernel)
theorem prime_44925942675193 : Nat.Prime 44925942675193 :=
  pock_cert 532247449 2 (prime_532247449) (by decide +kernel)
theorem prime_35581458644053887931343 : Nat.Prime 35581458644053887931343 :=
  pock_cert 44925942675193 2 (prime_44925942675193) (by decide +kernel)
theorem prime_23964610537191310276190549303 : Nat.Prime 23964610537191310276190549303 :=
  pock_cert 35581458644053887931343 2 (prime_35581458644053887931343) (by decide +kernel)
theorem prime_862725979338887169942859774909 : Nat.Prime 862725979338887169942859774909 :=
  pock_cert 23964610537191310276190549303 2 (prime_23964610537191310276190549303) (by decide +kernel)
theorem prime_20705423504133292078628634597817 : Nat.Prime 20705423504133292078628634597817 :=
  pock_cert 862725979338887169942859774909 2 (prime_862725979338887169942859774909) (by decide +kernel)
theorem prime_413244619895455989650825325680172591660047 : Nat.Prime 413244619895455989650825325680172591660047 :=
  pock_cert 20705423504133292078628634597817 2 (prime_20705423504133292078628634597817) (by decide +kernel)
theorem prime_12397338596863679689524759770405177749801411 : Nat.Prime 12397338596863679689524759770405177749801411 :=
  pock_cert 413244619895455989650825325680172591660047 2 (prime_413244619895455989650825325680172591660047) (by decide +kernel)
theorem prime_19173790298027098165721053155794528970226934547887232785722672956982046098136719667167519737147526097 : Nat.Prime 19173790298027098165721053155794528970226934547887232785722672956982046098136719667167519737147526097 :=
  lucas_cert 3 [(2, 4), (11, 3), (8389, 1), (38557, 1), (312289, 1), (1357291859799823621, 1), (529709925838459440593, 1), (12397338596863679689524759770405177749801411, 1)]
    (by
      simp only [List.forall_mem_cons, List.not_mem_nil, false_implies, implies_true, and_true]
      refine ⟨?_, ?_, ?_, ?_, ?_, ?_, ?_, ?_⟩
      · norm_num
      · norm_num
      · norm_num
      · norm_num
      · norm_num
      · exact prime_1357291859799823621
      · exact prime_529709925838459440593
      · exact prime_12397338596863679689524759770405177749801411)
    (by decide +kernel)
theorem prime_p384 : Nat.Prime 39402006196394479212279040100143613805079739270465446667948293404245721771496870329047266088258938001861606973112319 :=
  pock_cert 19173790298027098165721053155794528970226934547887232785722672956982046098136719667167519737147526097 2 (prime_19173790298027098165721053155794528970226934547887232785722672956982046098136719667167519737147526097) (by decide +kernel)
theorem prime_8463023 : Nat.Prime 8463023 :=
  pock_cert 37447 2 (by norm_num) (by decide +kernel)
theorem prime_9863677 : Nat.Prime 9863677 :=
  lucas_cert 5 [(2, 2), (3, 2), (311, 1), (881, 1)]
    (by
      simp only [List.forall_mem_cons, List.not_mem_nil, false_implies, implies_true, and_true]
      refine ⟨?_, ?_, ?_, ?_⟩
      · norm_num
      · norm_num
      · norm_num
      · norm_num)
    (by decide +kernel)
theorem prime_37344768852931 : Nat.Prime 37344768852931 :=
  pock_cert 9863677 2 (prime_9863677) (by decide +kernel)
theorem prime_55942463741690639 : Nat.Prime 55942463741690639 :=
  pock_cert 37344768852931 2 (prime_37344768852931) (by decide +kernel)
theorem prime_272109983 : Nat.Prime 272109983 :=
  lucas_cert 5 [(2, 1), (19, 1), (73, 1), (233, 1), (421, 1)]
    (by
      simp only [List.forall_mem_cons, List.not_mem_nil, false_implies, implies_true, and_true]
      refine ⟨?_, ?_, ?_, ?_, ?_⟩
      · norm_num
      · norm_num
      · norm_num
      · norm_num
      · norm_num)
    (by decide +kernel)
theorem prime_228572385721 : Nat.Prime 228572385721 :=
  pock_cert 272109983 2 (prime_272109983) (by decide +kernel)
theorem prime_23314383343543 : Nat.Prime 23314383343543 :=
  pock_cert 228572385721 2 (prime_228572385721) (by decide +kernel)
theorem prime_426632512014427833817 : Nat.Prime 426632512014427833817 :=
  pock_cert 23314383343543 2 (prime_23314383343543) (by decide +kernel)
theorem prime_1495199339761412565498084319 : Nat.Prime 1495199339761412565498084319 :=
  pock_cert 426632512014427833817 2 (prime_426632512014427833817) (by decide +kernel)
theorem prime_17942392077136950785977011829 : Nat.Prime 17942392077136950785977011829 :=
  pock_cert 1495199339761412565498084319 2 (prime_1495199339761412565498084319) (by decide +kernel)
theorem prime_1059392654943455286185473617842338478315215895509773412096307 : Nat.Prime 1059392654943455286185473617842338478315215895509773412096307 :=
  lucas_cert 2 [(2, 1), (251, 1), (248431, 1), (8463023, 1), (55942463741690639, 1), (17942392077136950785977011829, 1)]
    (by
      simp only [List.forall_mem_cons, List.not_mem_nil, false_implies, implies_true, and_true]
      refine ⟨?_, ?_, ?_, ?_, ?_, ?_⟩
      · norm_num
      · norm_num
      · norm_num
      · exact prime_8463023
      · exact prime_55942463741690639
      · exact prime_17942392077136950785977011829)
    (by decide +kernel)
theorem prime_3055465788140352002733946906144561090641249606160407884365391979704929268480326390471 : Nat.Prime 3055465788140352002733946906144561090641249606160407884365391979704929268480326390471 :=
  pock_cert 1059392654943455286185473617842338478315215895509773412096307 2 (prime_1059392654943455286185473617842338478315215895509773412096307) (by decide +kernel)
theorem prime_n384 : Nat.Prime 39402006196394479212279040100143613805079739270465446667946905279627659399113263569398956308152294913554433653942643 :=
  pock_cert 3055465788140352002733946906144561090641249606160407884365391979704929268480326390471 2 (prime_3055465788140352002733946906144561090641249606160407884365391979704929268480326390471) (by decide +kernel)
theorem prime_1923133 : Nat.Prime 1923133 :=
  pock_cert 3727 2 (by norm_num) (by decide +kernel)
theorem prime_31757755568855353 : Nat.Prime 31757755568855353 :=
  lucas_cert 10 [(2, 3), (3, 1), (31, 1), (107, 1), (223, 1), (4153, 1), (430751, 1)]
    (by
      simp only [List.forall_mem_cons, List.not_mem_nil, false_implies, implies_true, and_true]
      refine ⟨?_, ?_, ?_, ?_, ?_, ?_, ?_⟩
      · norm_num
      · norm_num
      · norm_num
      · norm_num
      · norm_num
      · norm_num
      · norm_num)
    (by decide +kernel)
theorem prime_2773320623 : Nat.Prime 2773320623 :=
  pock_cert 569003 2 (by norm_num) (by decide +kernel)
theorem prime_72106336199 : Nat.Prime 72106336199 :=
  pock_cert 2773320623 2 (prime_2773320623) (by decide +kernel)
theorem prime_8574133 : Nat.Prime 8574133 :=
  lucas_cert 2 [(2, 2), (3, 1), (7, 1), (103, 1), (991, 1)]
    (by
      simp only [List.forall_mem_cons, List.not_mem_nil, false_implies, implies_true, and_true]
      refine ⟨?_, ?_, ?_, ?_, ?_⟩
      · norm_num
      · norm_num
      · norm_num
      · norm_num
      · norm_num)
    (by decide +kernel)
theorem prime_1919519569386763 : Nat.Prime 1919519569386763 :=
  lucas_cert 2 [(2, 1), (3, 1), (7, 1), (19, 1), (47, 2), (127, 1), (8574133, 1)]
    (by
      simp only [List.forall_mem_cons, List.not_mem_nil, false_implies, implies_true, and_true]
      refine ⟨?_, ?_, ?_, ?_, ?_, ?_, ?_⟩
      · norm_num
      · norm_num
      · norm_num
      · norm_num
      · norm_num
      · norm_num
      · exact prime_8574133)
    (by decide +kernel)
theorem prime_75445702479781427272750846543864801 : Nat.Prime 75445702479781427272750846543864801 :=
  lucas_cert 7 [(2, 5), (3, 2), (5, 2), (75707, 1), (72106336199, 1), (1919519569386763, 1)]
    (by
      simp only [List.forall_mem_cons, List.not_mem_nil, false_implies, implies_true, and_true]
      refine ⟨?_, ?_, ?_, ?_, ?_, ?_⟩
      · norm_num
      · norm_num
      · norm_num
      · norm_num
      · exact prime_72106336199
      · exact prime_1919519569386763)
    (by decide +kernel)
theorem prime_74058212732561358302231226437062788676166966415465897661863160754340907 : Nat.Prime 74058212732561358302231226437062788676166966415465897661863160754340907 :=
  lucas_cert 2 [(2, 1), (3, 1), (353, 1), (57467, 1), (132049, 1), (1923133, 1), (31757755568855353, 1), (75445702479781427272750846543864801, 1)]
    (by
      simp only [List.forall_mem_cons, List.not_mem_nil, false_implies, implies_true, and_true]
      refine ⟨?_, ?_, ?_, ?_, ?_, ?_, ?_, ?_⟩
      · norm_num
      · norm_num
      · norm_num
      · norm_num
      · norm_num
      · exact prime_1923133
      · exact prime_31757755568855353
      · exact prime_75445702479781427272750846543864801)
    (by decide +kernel)
theorem prime_p25519 : Nat.Prime 57896044618658097711785492504343953926634992332820282019728792003956564819949 :=
  pock_cert 74058212732561358302231226437062788676166966415465897661863160754340907 2 (prime_74058212732561358302231226437062788676166966415465897661863160754340907) (by decide +kernel)
theorem prime_1224481 : Nat.Prime 1224481 :=
  pock_cert 2551 2 (by norm_num) (by decide +kernel)
theorem prime_1257559732178653 : Nat.Prime 1257559732178653 :=
  lucas_cert 2 [(2, 2), (3, 1), (7, 1), (23, 1), (531581, 1), (1224481, 1)]
    (by
      simp only [List.forall_mem_cons, List.not_mem_nil, false_implies, implies_true, and_true]
      refine ⟨?_, ?_, ?_, ?_, ?_, ?_⟩
      · norm_num
      · norm_num
      · norm_num
      · norm_num
      · norm_num
      · exact prime_1224481)
    (by decide +kernel)
theorem prime_4434155615661930479 : Nat.Prime 4434155615661930479 :=
  pock_cert 1257559732178653 2 (prime_1257559732178653) (by decide +kernel)
theorem prime_172054593956031949258510691 : Nat.Prime 172054593956031949258510691 :=
  pock_cert 4434155615661930479 2 (prime_4434155615661930479) (by decide +kernel)
theorem prime_19757330305831588566944191468367130476339 : Nat.Prime 19757330305831588566944191468367130476339 :=
  pock_cert 172054593956031949258510691 2 (prime_172054593956031949258510691) (by decide +kernel)
theorem prime_276602624281642239937218680557139826668747 : Nat.Prime 276602624281642239937218680557139826668747 :=
  pock_cert 19757330305831588566944191468367130476339 2 (prime_19757330305831588566944191468367130476339) (by decide +kernel)
theorem prime_l25519 : Nat.Prime 7237005577332262213973186563042994240857116359379907606001950938285454250989 :=
  pock_cert 276602624281642239937218680557139826668747 2 (prime_276602624281642239937218680557139826668747) (by decide +kernel)

end Verif.Primes
