T trades strategy_test.rs:empty_on_bar_close_continous T T 1000.0 T
V 1.0 2.0 3.0 4.0 5.0
S - - - - -
E  |  |  |  | 
T trades strategy_test.rs:trades_history_on_bar_close_continous T T 1000.0 T
V 1.0 2.0 3.0 4.0 5.0 6.0 7.0 8.0 9.0 10.0 11.0 12.0 13.0 14.0 15.0 16.0 17.0 18.0 19.0 20.0 21.0 22.0 23.0 24.0 25.0 26.0 27.0 28.0 29.0
S - - S S L L L S L S - S - S L L L L - S - S - S L L - - L
E  |  | S F 2 3.0 - - | S F 2 3.0 - - | S T 2 3.0 4 5.0 ; L F 4 5.0 - - | S T 2 3.0 4 5.0 ; L F 4 5.0 - - | S T 2 3.0 4 5.0 ; L F 4 5.0 - - | S T 2 3.0 4 5.0 ; L T 4 5.0 7 8.0 ; S F 7 8.0 - - | S T 2 3.0 4 5.0 ; L T 4 5.0 7 8.0 ; S T 7 8.0 8 9.0 ; L F 8 9.0 - - | S T 2 3.0 4 5.0 ; L T 4 5.0 7 8.0 ; S T 7 8.0 8 9.0 ; L T 8 9.0 9 10.0 ; S F 9 10.0 - - | S T 2 3.0 4 5.0 ; L T 4 5.0 7 8.0 ; S T 7 8.0 8 9.0 ; L T 8 9.0 9 10.0 ; S F 9 10.0 - - | S T 2 3.0 4 5.0 ; L T 4 5.0 7 8.0 ; S T 7 8.0 8 9.0 ; L T 8 9.0 9 10.0 ; S F 9 10.0 - - | S T 2 3.0 4 5.0 ; L T 4 5.0 7 8.0 ; S T 7 8.0 8 9.0 ; L T 8 9.0 9 10.0 ; S F 9 10.0 - - | S T 2 3.0 4 5.0 ; L T 4 5.0 7 8.0 ; S T 7 8.0 8 9.0 ; L T 8 9.0 9 10.0 ; S F 9 10.0 - - | S T 2 3.0 4 5.0 ; L T 4 5.0 7 8.0 ; S T 7 8.0 8 9.0 ; L T 8 9.0 9 10.0 ; S T 9 10.0 14 15.0 ; L F 14 15.0 - - | S T 2 3.0 4 5.0 ; L T 4 5.0 7 8.0 ; S T 7 8.0 8 9.0 ; L T 8 9.0 9 10.0 ; S T 9 10.0 14 15.0 ; L F 14 15.0 - - | S T 2 3.0 4 5.0 ; L T 4 5.0 7 8.0 ; S T 7 8.0 8 9.0 ; L T 8 9.0 9 10.0 ; S T 9 10.0 14 15.0 ; L F 14 15.0 - - | S T 2 3.0 4 5.0 ; L T 4 5.0 7 8.0 ; S T 7 8.0 8 9.0 ; L T 8 9.0 9 10.0 ; S T 9 10.0 14 15.0 ; L F 14 15.0 - - | S T 2 3.0 4 5.0 ; L T 4 5.0 7 8.0 ; S T 7 8.0 8 9.0 ; L T 8 9.0 9 10.0 ; S T 9 10.0 14 15.0 ; L F 14 15.0 - - | S T 2 3.0 4 5.0 ; L T 4 5.0 7 8.0 ; S T 7 8.0 8 9.0 ; L T 8 9.0 9 10.0 ; S T 9 10.0 14 15.0 ; L T 14 15.0 19 20.0 ; S F 19 20.0 - - | S T 2 3.0 4 5.0 ; L T 4 5.0 7 8.0 ; S T 7 8.0 8 9.0 ; L T 8 9.0 9 10.0 ; S T 9 10.0 14 15.0 ; L T 14 15.0 19 20.0 ; S F 19 20.0 - - | S T 2 3.0 4 5.0 ; L T 4 5.0 7 8.0 ; S T 7 8.0 8 9.0 ; L T 8 9.0 9 10.0 ; S T 9 10.0 14 15.0 ; L T 14 15.0 19 20.0 ; S F 19 20.0 - - | S T 2 3.0 4 5.0 ; L T 4 5.0 7 8.0 ; S T 7 8.0 8 9.0 ; L T 8 9.0 9 10.0 ; S T 9 10.0 14 15.0 ; L T 14 15.0 19 20.0 ; S F 19 20.0 - - | S T 2 3.0 4 5.0 ; L T 4 5.0 7 8.0 ; S T 7 8.0 8 9.0 ; L T 8 9.0 9 10.0 ; S T 9 10.0 14 15.0 ; L T 14 15.0 19 20.0 ; S F 19 20.0 - - | S T 2 3.0 4 5.0 ; L T 4 5.0 7 8.0 ; S T 7 8.0 8 9.0 ; L T 8 9.0 9 10.0 ; S T 9 10.0 14 15.0 ; L T 14 15.0 19 20.0 ; S T 19 20.0 24 25.0 ; L F 24 25.0 - - | S T 2 3.0 4 5.0 ; L T 4 5.0 7 8.0 ; S T 7 8.0 8 9.0 ; L T 8 9.0 9 10.0 ; S T 9 10.0 14 15.0 ; L T 14 15.0 19 20.0 ; S T 19 20.0 24 25.0 ; L F 24 25.0 - - | S T 2 3.0 4 5.0 ; L T 4 5.0 7 8.0 ; S T 7 8.0 8 9.0 ; L T 8 9.0 9 10.0 ; S T 9 10.0 14 15.0 ; L T 14 15.0 19 20.0 ; S T 19 20.0 24 25.0 ; L F 24 25.0 - - | S T 2 3.0 4 5.0 ; L T 4 5.0 7 8.0 ; S T 7 8.0 8 9.0 ; L T 8 9.0 9 10.0 ; S T 9 10.0 14 15.0 ; L T 14 15.0 19 20.0 ; S T 19 20.0 24 25.0 ; L F 24 25.0 - - | S T 2 3.0 4 5.0 ; L T 4 5.0 7 8.0 ; S T 7 8.0 8 9.0 ; L T 8 9.0 9 10.0 ; S T 9 10.0 14 15.0 ; L T 14 15.0 19 20.0 ; S T 19 20.0 24 25.0 ; L F 24 25.0 - -
T trades strategy_test.rs:trades_history_next_bar_open_continous T F 1000.0 T
V 1.0 2.0 3.0 4.0 5.0 6.0 7.0 8.0 9.0 10.0 11.0 12.0 13.0 14.0 15.0 16.0 17.0 18.0 19.0 20.0 21.0 22.0 23.0 24.0 25.0 26.0 27.0 28.0 29.0
S - - S S L - L S L S - S - S L L - - L S S - - - L - - - L
E  |  |  | S F 3 4.0 - - | S F 3 4.0 - - | S T 3 4.0 5 6.0 ; L F 5 6.0 - - | S T 3 4.0 5 6.0 ; L F 5 6.0 - - | S T 3 4.0 5 6.0 ; L F 5 6.0 - - | S T 3 4.0 5 6.0 ; L T 5 6.0 8 9.0 ; S F 8 9.0 - - | S T 3 4.0 5 6.0 ; L T 5 6.0 8 9.0 ; S T 8 9.0 9 10.0 ; L F 9 10.0 - - | S T 3 4.0 5 6.0 ; L T 5 6.0 8 9.0 ; S T 8 9.0 9 10.0 ; L T 9 10.0 10 11.0 ; S F 10 11.0 - - | S T 3 4.0 5 6.0 ; L T 5 6.0 8 9.0 ; S T 8 9.0 9 10.0 ; L T 9 10.0 10 11.0 ; S F 10 11.0 - - | S T 3 4.0 5 6.0 ; L T 5 6.0 8 9.0 ; S T 8 9.0 9 10.0 ; L T 9 10.0 10 11.0 ; S F 10 11.0 - - | S T 3 4.0 5 6.0 ; L T 5 6.0 8 9.0 ; S T 8 9.0 9 10.0 ; L T 9 10.0 10 11.0 ; S F 10 11.0 - - | S T 3 4.0 5 6.0 ; L T 5 6.0 8 9.0 ; S T 8 9.0 9 10.0 ; L T 9 10.0 10 11.0 ; S F 10 11.0 - - | S T 3 4.0 5 6.0 ; L T 5 6.0 8 9.0 ; S T 8 9.0 9 10.0 ; L T 9 10.0 10 11.0 ; S T 10 11.0 15 16.0 ; L F 15 16.0 - - | S T 3 4.0 5 6.0 ; L T 5 6.0 8 9.0 ; S T 8 9.0 9 10.0 ; L T 9 10.0 10 11.0 ; S T 10 11.0 15 16.0 ; L F 15 16.0 - - | S T 3 4.0 5 6.0 ; L T 5 6.0 8 9.0 ; S T 8 9.0 9 10.0 ; L T 9 10.0 10 11.0 ; S T 10 11.0 15 16.0 ; L F 15 16.0 - - | S T 3 4.0 5 6.0 ; L T 5 6.0 8 9.0 ; S T 8 9.0 9 10.0 ; L T 9 10.0 10 11.0 ; S T 10 11.0 15 16.0 ; L F 15 16.0 - - | S T 3 4.0 5 6.0 ; L T 5 6.0 8 9.0 ; S T 8 9.0 9 10.0 ; L T 9 10.0 10 11.0 ; S T 10 11.0 15 16.0 ; L F 15 16.0 - - | S T 3 4.0 5 6.0 ; L T 5 6.0 8 9.0 ; S T 8 9.0 9 10.0 ; L T 9 10.0 10 11.0 ; S T 10 11.0 15 16.0 ; L T 15 16.0 20 21.0 ; S F 20 21.0 - - | S T 3 4.0 5 6.0 ; L T 5 6.0 8 9.0 ; S T 8 9.0 9 10.0 ; L T 9 10.0 10 11.0 ; S T 10 11.0 15 16.0 ; L T 15 16.0 20 21.0 ; S F 20 21.0 - - | S T 3 4.0 5 6.0 ; L T 5 6.0 8 9.0 ; S T 8 9.0 9 10.0 ; L T 9 10.0 10 11.0 ; S T 10 11.0 15 16.0 ; L T 15 16.0 20 21.0 ; S F 20 21.0 - - | S T 3 4.0 5 6.0 ; L T 5 6.0 8 9.0 ; S T 8 9.0 9 10.0 ; L T 9 10.0 10 11.0 ; S T 10 11.0 15 16.0 ; L T 15 16.0 20 21.0 ; S F 20 21.0 - - | S T 3 4.0 5 6.0 ; L T 5 6.0 8 9.0 ; S T 8 9.0 9 10.0 ; L T 9 10.0 10 11.0 ; S T 10 11.0 15 16.0 ; L T 15 16.0 20 21.0 ; S F 20 21.0 - - | S T 3 4.0 5 6.0 ; L T 5 6.0 8 9.0 ; S T 8 9.0 9 10.0 ; L T 9 10.0 10 11.0 ; S T 10 11.0 15 16.0 ; L T 15 16.0 20 21.0 ; S T 20 21.0 25 26.0 ; L F 25 26.0 - - | S T 3 4.0 5 6.0 ; L T 5 6.0 8 9.0 ; S T 8 9.0 9 10.0 ; L T 9 10.0 10 11.0 ; S T 10 11.0 15 16.0 ; L T 15 16.0 20 21.0 ; S T 20 21.0 25 26.0 ; L F 25 26.0 - - | S T 3 4.0 5 6.0 ; L T 5 6.0 8 9.0 ; S T 8 9.0 9 10.0 ; L T 9 10.0 10 11.0 ; S T 10 11.0 15 16.0 ; L T 15 16.0 20 21.0 ; S T 20 21.0 25 26.0 ; L F 25 26.0 - - | S T 3 4.0 5 6.0 ; L T 5 6.0 8 9.0 ; S T 8 9.0 9 10.0 ; L T 9 10.0 10 11.0 ; S T 10 11.0 15 16.0 ; L T 15 16.0 20 21.0 ; S T 20 21.0 25 26.0 ; L F 25 26.0 - -
T trades strategy_test.rs:trades_history_on_bar_close_intermittent F T 1000.0 T
V 1.0 2.0 3.0 4.0 5.0 6.0 7.0 8.0 9.0 10.0 11.0 12.0 13.0 14.0 15.0 16.0 17.0 18.0 19.0 20.0 21.0 22.0 23.0 24.0 25.0 26.0 27.0 28.0 29.0 30.0 31.0 32.0 33.0 34.0 35.0 36.0 37.0 38.0 39.0 40.0 41.0
S - - S S L - - S L S - S S S L - - L - L - L - L S - - S - S L - - L - L L S - - -
E  |  | S F 2 3.0 - - | S F 2 3.0 - - | S T 2 3.0 4 5.0 | S T 2 3.0 4 5.0 | S T 2 3.0 4 5.0 | S T 2 3.0 4 5.0 ; S F 7 8.0 - - | S T 2 3.0 4 5.0 ; S T 7 8.0 8 9.0 | S T 2 3.0 4 5.0 ; S T 7 8.0 8 9.0 ; S F 9 10.0 - - | S T 2 3.0 4 5.0 ; S T 7 8.0 8 9.0 ; S F 9 10.0 - - | S T 2 3.0 4 5.0 ; S T 7 8.0 8 9.0 ; S F 9 10.0 - - | S T 2 3.0 4 5.0 ; S T 7 8.0 8 9.0 ; S F 9 10.0 - - | S T 2 3.0 4 5.0 ; S T 7 8.0 8 9.0 ; S F 9 10.0 - - | S T 2 3.0 4 5.0 ; S T 7 8.0 8 9.0 ; S T 9 10.0 14 15.0 | S T 2 3.0 4 5.0 ; S T 7 8.0 8 9.0 ; S T 9 10.0 14 15.0 | S T 2 3.0 4 5.0 ; S T 7 8.0 8 9.0 ; S T 9 10.0 14 15.0 | S T 2 3.0 4 5.0 ; S T 7 8.0 8 9.0 ; S T 9 10.0 14 15.0 ; L F 17 18.0 - - | S T 2 3.0 4 5.0 ; S T 7 8.0 8 9.0 ; S T 9 10.0 14 15.0 ; L F 17 18.0 - - | S T 2 3.0 4 5.0 ; S T 7 8.0 8 9.0 ; S T 9 10.0 14 15.0 ; L F 17 18.0 - - | S T 2 3.0 4 5.0 ; S T 7 8.0 8 9.0 ; S T 9 10.0 14 15.0 ; L F 17 18.0 - - | S T 2 3.0 4 5.0 ; S T 7 8.0 8 9.0 ; S T 9 10.0 14 15.0 ; L F 17 18.0 - - | S T 2 3.0 4 5.0 ; S T 7 8.0 8 9.0 ; S T 9 10.0 14 15.0 ; L F 17 18.0 - - | S T 2 3.0 4 5.0 ; S T 7 8.0 8 9.0 ; S T 9 10.0 14 15.0 ; L F 17 18.0 - - | S T 2 3.0 4 5.0 ; S T 7 8.0 8 9.0 ; S T 9 10.0 14 15.0 ; L T 17 18.0 24 25.0 | S T 2 3.0 4 5.0 ; S T 7 8.0 8 9.0 ; S T 9 10.0 14 15.0 ; L T 17 18.0 24 25.0 | S T 2 3.0 4 5.0 ; S T 7 8.0 8 9.0 ; S T 9 10.0 14 15.0 ; L T 17 18.0 24 25.0 | S T 2 3.0 4 5.0 ; S T 7 8.0 8 9.0 ; S T 9 10.0 14 15.0 ; L T 17 18.0 24 25.0 ; S F 27 28.0 - - | S T 2 3.0 4 5.0 ; S T 7 8.0 8 9.0 ; S T 9 10.0 14 15.0 ; L T 17 18.0 24 25.0 ; S F 27 28.0 - - | S T 2 3.0 4 5.0 ; S T 7 8.0 8 9.0 ; S T 9 10.0 14 15.0 ; L T 17 18.0 24 25.0 ; S F 27 28.0 - - | S T 2 3.0 4 5.0 ; S T 7 8.0 8 9.0 ; S T 9 10.0 14 15.0 ; L T 17 18.0 24 25.0 ; S T 27 28.0 30 31.0 | S T 2 3.0 4 5.0 ; S T 7 8.0 8 9.0 ; S T 9 10.0 14 15.0 ; L T 17 18.0 24 25.0 ; S T 27 28.0 30 31.0 | S T 2 3.0 4 5.0 ; S T 7 8.0 8 9.0 ; S T 9 10.0 14 15.0 ; L T 17 18.0 24 25.0 ; S T 27 28.0 30 31.0 | S T 2 3.0 4 5.0 ; S T 7 8.0 8 9.0 ; S T 9 10.0 14 15.0 ; L T 17 18.0 24 25.0 ; S T 27 28.0 30 31.0 ; L F 33 34.0 - - | S T 2 3.0 4 5.0 ; S T 7 8.0 8 9.0 ; S T 9 10.0 14 15.0 ; L T 17 18.0 24 25.0 ; S T 27 28.0 30 31.0 ; L F 33 34.0 - - | S T 2 3.0 4 5.0 ; S T 7 8.0 8 9.0 ; S T 9 10.0 14 15.0 ; L T 17 18.0 24 25.0 ; S T 27 28.0 30 31.0 ; L F 33 34.0 - - | S T 2 3.0 4 5.0 ; S T 7 8.0 8 9.0 ; S T 9 10.0 14 15.0 ; L T 17 18.0 24 25.0 ; S T 27 28.0 30 31.0 ; L F 33 34.0 - - | S T 2 3.0 4 5.0 ; S T 7 8.0 8 9.0 ; S T 9 10.0 14 15.0 ; L T 17 18.0 24 25.0 ; S T 27 28.0 30 31.0 ; L T 33 34.0 37 38.0 | S T 2 3.0 4 5.0 ; S T 7 8.0 8 9.0 ; S T 9 10.0 14 15.0 ; L T 17 18.0 24 25.0 ; S T 27 28.0 30 31.0 ; L T 33 34.0 37 38.0 | S T 2 3.0 4 5.0 ; S T 7 8.0 8 9.0 ; S T 9 10.0 14 15.0 ; L T 17 18.0 24 25.0 ; S T 27 28.0 30 31.0 ; L T 33 34.0 37 38.0 | S T 2 3.0 4 5.0 ; S T 7 8.0 8 9.0 ; S T 9 10.0 14 15.0 ; L T 17 18.0 24 25.0 ; S T 27 28.0 30 31.0 ; L T 33 34.0 37 38.0
T trades strategy_test.rs:trades_history_next_bar_open_intermittent F F 1000.0 T
V 1.0 2.0 3.0 4.0 5.0 6.0 7.0 8.0 9.0 10.0 11.0 12.0 13.0 14.0 15.0 16.0 17.0 18.0 19.0 20.0 21.0 22.0 23.0 24.0 25.0 26.0 27.0 28.0 29.0 30.0 31.0 32.0 33.0 34.0 35.0 36.0 37.0 38.0 39.0 40.0 41.0
S - - S S L - - S L S - S - S L - - L L - L L - L S - - S S S L - - L - L - S - - -
E  |  |  | S F 3 4.0 - - | S F 3 4.0 - - | S T 3 4.0 5 6.0 | S T 3 4.0 5 6.0 | S T 3 4.0 5 6.0 | S T 3 4.0 5 6.0 ; S F 8 9.0 - - | S T 3 4.0 5 6.0 ; S T 8 9.0 9 10.0 | S T 3 4.0 5 6.0 ; S T 8 9.0 9 10.0 ; S F 10 11.0 - - | S T 3 4.0 5 6.0 ; S T 8 9.0 9 10.0 ; S F 10 11.0 - - | S T 3 4.0 5 6.0 ; S T 8 9.0 9 10.0 ; S F 10 11.0 - - | S T 3 4.0 5 6.0 ; S T 8 9.0 9 10.0 ; S F 10 11.0 - - | S T 3 4.0 5 6.0 ; S T 8 9.0 9 10.0 ; S F 10 11.0 - - | S T 3 4.0 5 6.0 ; S T 8 9.0 9 10.0 ; S T 10 11.0 15 16.0 | S T 3 4.0 5 6.0 ; S T 8 9.0 9 10.0 ; S T 10 11.0 15 16.0 | S T 3 4.0 5 6.0 ; S T 8 9.0 9 10.0 ; S T 10 11.0 15 16.0 | S T 3 4.0 5 6.0 ; S T 8 9.0 9 10.0 ; S T 10 11.0 15 16.0 ; L F 18 19.0 - - | S T 3 4.0 5 6.0 ; S T 8 9.0 9 10.0 ; S T 10 11.0 15 16.0 ; L F 18 19.0 - - | S T 3 4.0 5 6.0 ; S T 8 9.0 9 10.0 ; S T 10 11.0 15 16.0 ; L F 18 19.0 - - | S T 3 4.0 5 6.0 ; S T 8 9.0 9 10.0 ; S T 10 11.0 15 16.0 ; L F 18 19.0 - - | S T 3 4.0 5 6.0 ; S T 8 9.0 9 10.0 ; S T 10 11.0 15 16.0 ; L F 18 19.0 - - | S T 3 4.0 5 6.0 ; S T 8 9.0 9 10.0 ; S T 10 11.0 15 16.0 ; L F 18 19.0 - - | S T 3 4.0 5 6.0 ; S T 8 9.0 9 10.0 ; S T 10 11.0 15 16.0 ; L F 18 19.0 - - | S T 3 4.0 5 6.0 ; S T 8 9.0 9 10.0 ; S T 10 11.0 15 16.0 ; L T 18 19.0 25 26.0 | S T 3 4.0 5 6.0 ; S T 8 9.0 9 10.0 ; S T 10 11.0 15 16.0 ; L T 18 19.0 25 26.0 | S T 3 4.0 5 6.0 ; S T 8 9.0 9 10.0 ; S T 10 11.0 15 16.0 ; L T 18 19.0 25 26.0 | S T 3 4.0 5 6.0 ; S T 8 9.0 9 10.0 ; S T 10 11.0 15 16.0 ; L T 18 19.0 25 26.0 ; S F 28 29.0 - - | S T 3 4.0 5 6.0 ; S T 8 9.0 9 10.0 ; S T 10 11.0 15 16.0 ; L T 18 19.0 25 26.0 ; S F 28 29.0 - - | S T 3 4.0 5 6.0 ; S T 8 9.0 9 10.0 ; S T 10 11.0 15 16.0 ; L T 18 19.0 25 26.0 ; S F 28 29.0 - - | S T 3 4.0 5 6.0 ; S T 8 9.0 9 10.0 ; S T 10 11.0 15 16.0 ; L T 18 19.0 25 26.0 ; S T 28 29.0 31 32.0 | S T 3 4.0 5 6.0 ; S T 8 9.0 9 10.0 ; S T 10 11.0 15 16.0 ; L T 18 19.0 25 26.0 ; S T 28 29.0 31 32.0 | S T 3 4.0 5 6.0 ; S T 8 9.0 9 10.0 ; S T 10 11.0 15 16.0 ; L T 18 19.0 25 26.0 ; S T 28 29.0 31 32.0 | S T 3 4.0 5 6.0 ; S T 8 9.0 9 10.0 ; S T 10 11.0 15 16.0 ; L T 18 19.0 25 26.0 ; S T 28 29.0 31 32.0 ; L F 34 35.0 - - | S T 3 4.0 5 6.0 ; S T 8 9.0 9 10.0 ; S T 10 11.0 15 16.0 ; L T 18 19.0 25 26.0 ; S T 28 29.0 31 32.0 ; L F 34 35.0 - - | S T 3 4.0 5 6.0 ; S T 8 9.0 9 10.0 ; S T 10 11.0 15 16.0 ; L T 18 19.0 25 26.0 ; S T 28 29.0 31 32.0 ; L F 34 35.0 - - | S T 3 4.0 5 6.0 ; S T 8 9.0 9 10.0 ; S T 10 11.0 15 16.0 ; L T 18 19.0 25 26.0 ; S T 28 29.0 31 32.0 ; L F 34 35.0 - - | S T 3 4.0 5 6.0 ; S T 8 9.0 9 10.0 ; S T 10 11.0 15 16.0 ; L T 18 19.0 25 26.0 ; S T 28 29.0 31 32.0 ; L T 34 35.0 38 39.0 | S T 3 4.0 5 6.0 ; S T 8 9.0 9 10.0 ; S T 10 11.0 15 16.0 ; L T 18 19.0 25 26.0 ; S T 28 29.0 31 32.0 ; L T 34 35.0 38 39.0 | S T 3 4.0 5 6.0 ; S T 8 9.0 9 10.0 ; S T 10 11.0 15 16.0 ; L T 18 19.0 25 26.0 ; S T 28 29.0 31 32.0 ; L T 34 35.0 38 39.0
T equity strategy_test.rs:equity_empty_on_bar_close_continous T T 1000.0 T
V 1.0 2.0 3.0 4.0 5.0
S - - - - -
E 1000.0 0.0 | 1000.0 0.0 | 1000.0 0.0 | 1000.0 0.0 | 1000.0 0.0
T equity strategy_test.rs:equity_on_bar_close_continous T T 1000.0 T
V 1.0 1.0 1.0 2.0 4.0 1.0 0.5 10.0 12.0 10.0 6.0 14.0 15.0 18.0 4.0 18.0 20.0 18.0 6.0 1.0 8.0 9.0 10.0 17.0 11.0 11.0 15.0 22.0 6.0 5.0 7.0 1.0
S - - L - L - - - S - S S - - - L - - S - L S L S L - - L L S S S
E 1000.0 0.0 | 1000.0 0.0 | 1000.0 0.0 | 2000.0 1000.0 | 4000.0 3000.0 | 1000.0 0.0 | 500.0 -500.0 | 10000.0 9000.0 | 12000.0 0.0 | 14000.0 2000.0 | 18000.0 6000.0 | 10000.0 -2000.0 | 9000.0 -3000.0 | 6000.0 -6000.0 | 20000.0 8000.0 | 6000.0 0.0 | 6666.666666 666.666666 | 6000.0 0.0 | 2000.0 0.0 | 3666.6666666 1666.66666 | 1333.33334 0.0 | 1500.0 0.0 | 1333.333333 0.0 | 2266.66666 0.0 | 3066.66666 0.0 | 3066.66666 0.0 | 4181.8181727 1115.15151 | 6133.3333333 3066.666666 | 1672.72727 -1393.93939 | 1393.939391 0.0 | 836.3636363636364 -557.5757564 | 2509.0909038 1115.1515128
T equity strategy_test.rs:equity_on_next_bar_open_continous T F 1000.0 T
V 1.0 1.0 1.0 2.0 4.0 1.0 0.5 10.0 12.0 10.0 6.0 14.0 15.0 18.0 4.0 18.0 19.0 18.0 6.0 1.0 0.02 0.01 10.0 17.0 11.0 11.0 15.0 22.0 6.0 5.0 7.0 1.0 11.0
S - - L - - - - - S - - - - - - L - - S - L S L S L - - L L S S S S
E 1000.0 0.0 | 1000.0 0.0 | 1000.0 0.0 | 1000.0 0.0 | 2000.0 1000.0 | 500.0 -500.0 | 250.0 -750.0 | 5000.0 4000.0 | 6000.0 5000.0 | 5000.0 0.0 | 7000.0 2000.0 | 3000.0 -2000.0 | 2500.0 -2500.0 | 1000.0 -4000.0 | 8000.0 3000.0 | 1000.0 -4000.0 | 500.0 0.0 | 473.6842106 -26.3157894 | 157.8947369 -342.1052631 | 26.31579 0.0 | 52.1052631 25.78947 | 52.3684210526316 0.0 | 52368.421052552 0.0 | 15710.52631578948 0.0 | 10165.634674922605 0.0 | 10165.634674922605 0.0 | 13862.229102167188 3696.5944272445836 | 20331.26934984521 10165.634674922605 | 5544.89164086687 -4620.743034055729 | 4620.743034 -5544.8916408668 | 6469.040247678022 0.0 | 12013.93188854 5544.891640866876 | 2772.445820433438 -3696.594427244584
T equity strategy_test.rs:equity_on_bar_close_intermittent F T 1000.0 T
V 1.0 1.0 1.0 2.0 4.0 1.0 0.5 10.0 12.0 10.0 6.0 14.0 15.0 18.0 4.0 18.0 19.0 18.0 6.0 1.0 0.02 0.01 10.0 17.0 11.0 11.0 15.0 34.0 6.0 5.0 7.0 1.0 11.0 500.0 -50.0 11.0 11.0 11.0 57.0 11.0 5.0 2.0 61.0 57.0 30.0 6.0 8.0 5.0 10.0 8.0 12.0 16.0
S - - L - L - - L S - - - - - - L L - S - L S L S - - - S - S - S L - - - - - S S - S - - S L - - S L S L
E 1000.0 0.0 | 1000.0 0.0 | 1000.0 0.0 | 2000.0 1000.0 | 4000.0 3000.0 | 1000.0 0.0 | 500.0 -500.0 | 10000.0 9000.0 | 12000.0 0.0 | 12000.0 0.0 | 12000.0 0.0 | 12000.0 0.0 | 12000.0 0.0 | 12000.0 0.0 | 12000.0 0.0 | 12000.0 0.0 | 12666.66666666 666.6666666 | 12000.0 0.0 | 4000.0 0.0 | 4000.0 0.0 | 4000.0 0.0 | 2000.0 0.0 | 2000.0 -0.0 | 3400.0 0.0 | 3400.0 0.0 | 3400.0 0.0 | 3400.0 0.0 | 3400.0 0.0 | 6200.0 2800.0 | 6300.0 2900.0 | 6100.0 2700.0 | 6700.0 3300.0 | 5700.0 0.0 | 5700.0 0.0 | 5700.0 0.0 | 5700.0 0.0 | 5700.0 0.0 | 5700.0 0.0 | 5700.0 0.0 | 10300.0 4600.0 | 10900.0 5200.0 | 11200.0 5500.0 | 5300.0 -400.0 | 5700.0 0.0 | 8400.0 2700.0 | 10800.0 0.0 | 10800.0 0.0 | 10800.0 0.0 | 10800.0 0.0 | 12960.0 0.0 | 12960.0 0.0 | 8640.0 0.0
T equity strategy_test.rs:equity_next_bar_open_intermittent F F 1000.0 T
V 1.0 1.0 1.0 2.0 4.0 1.0 0.5 10.0 12.0 10.0 6.0 14.0 15.0 18.0 4.0 18.0 5.0 10.0 6.0 1.0 2.0 5.0 10.0 20.0 10.0 8.0 15.0 34.0 10.0 5.0 7.0 1.0 12.0 4.0 -50.0 11.0 11.0 11.0 57.0 8.0 6.0 2.0 12.0 8.0 6.0 4.0 10.0 5.0 10.0 6.0 8.0 2.0
S - - L - L - - L S - - - - - - L L - S - L S L S - - - S - S - S L - - - - - S S - S - - S L - - S L S L
E 1000.0 0.0 | 1000.0 0.0 | 1000.0 0.0 | 1000.0 0.0 | 2000.0 1000.0 | 500.0 -500.0 | 250.0 -750.0 | 5000.0 4000.0 | 6000.0 5000.0 | 5000.0 0.0 | 5000.0 0.0 | 5000.0 0.0 | 5000.0 0.0 | 5000.0 0.0 | 5000.0 0.0 | 5000.0 0.0 | 5000.0 0.0 | 10000.0 5000.0 | 6000.0 1000.0 | 1000.0 0.0 | 1000.0 0.0 | 1000.0 0.0 | 2000.0 0.0 | 2000.0 0.0 | 1000.0 0.0 | 1000.0 0.0 | 1000.0 0.0 | 1000.0 0.0 | 1000.0 0.0 | 1500.0 500.0 | 1300.0 300.0 | 1900.0 900.0 | 800.0 -200.0 | 1600.0 0.0 | 1600.0 0.0 | 1600.0 0.0 | 1600.0 0.0 | 1600.0 0.0 | 1600.0 0.0 | 1600.0 0.0 | 2000.0 400.0 | 2800.0 1200.0 | 800.0 -800.0 | 1600.0 0.0 | 2000.0 400.0 | 2400.0 800.0 | 1200.0 0.0 | 1200.0 0.0 | 1200.0 0.0 | 1200.0 0.0 | 800.0 0.0 | 800.0 0.0
T validator window_validator_test.rs:length_1 1
V 1.0 2.0 3.0 4.0 5.0 6.0 7.0 8.0
E T | T | T | T | T | T | T | T
T validator window_validator_test.rs:length_5 5
V 1.0 2.0 3.0 4.0 5.0 6.0 7.0 8.0
E T | T | T | T | T | T | T | T
T validator window_validator_test.rs:length_1_and_none 1
V - 2.0 - 4.0 5.0 6.0 - 8.0
E F | T | F | T | T | T | F | T
T validator window_validator_test.rs:length_3_and_none 3
V - - - 4.0 5.0 6.0 7.0 8.0
E F | F | F | F | F | T | T | T
T validator window_validator_test.rs:_length_3_and_none_mixed 3
V - - - 4.0 5.0 6.0 - 8.0 9.0 10.0 - 1.0 5.0 1.0 5.0 2.0
E F | F | F | F | F | T | F | F | F | T | F | F | F | T | T | T
T fixnan fixnan_test.rs:all_non_nan 
V 1.0 2.0 3.0 4.0 5.0 6.0 7.0 8.0
E 1.0 | 2.0 | 3.0 | 4.0 | 5.0 | 6.0 | 7.0 | 8.0
T fixnan fixnan_test.rs:all_nan 
V - - - - - - - -
E - | - | - | - | - | - | - | -
T fixnan fixnan_test.rs:mixed 
V - - - - 1.0 2.0 - - - 3.0 - 4.0 - - - - 5.0 6.0 7.0 -
E - | - | - | - | 1.0 | 2.0 | 2.0 | 2.0 | 2.0 | 3.0 | 3.0 | 4.0 | 4.0 | 4.0 | 4.0 | 4.0 | 5.0 | 6.0 | 7.0 | 7.0
T mean mean_test.rs:test_mean 
V 1.0 2.0 3.0 4.0 5.0 6.0 7.0 8.0
E 1.0 | 1.5 | 2.0 | 2.5 | 3.0 | 3.5 | 4.0 | 4.5
T welfords_stdev welfords_stdev_test.rs:stdev 
V 2.0 4.0 8.0 16.0 32.0 64.0 128.0 256.0 512.0 1024.0
E 0.0 | 1.4142135623730951 | 3.055050463303893 | 6.191391873668904 | 12.198360545581526 | 23.723406163533937 | 45.87560820928077 | 88.5336901168944 | 170.83260162444924 | 329.89702096933894
T welfords_var welfords_var_test.rs:variance 
V 2.0 4.0 8.0 16.0 32.0 64.0 128.0 256.0 512.0 1024.0
E 0.0 | 2.0 | 9.333333333333332 | 38.333333333333336 | 148.8 | 562.8 | 2104.571428571429 | 7838.214285714285 | 29183.777777777777 | 108832.04444444444
N clip_value 0.0 0.0 1.0 = 0.0 1e-300
N clip_value 1.0 0.0 1.0 = 1.0 1e-300
N clip_value -2.0 0.0 1.0 = 0.0 1e-300
N clip_value 2.0 0.0 1.0 = 1.0 1e-300
N scale_value_up -100.0 70.0 100.0 = 0.0 0.01
N scale_value_up 0.0 70.0 100.0 = 0.0 0.01
N scale_value_up 15.0 70.0 100.0 = 0.0 0.01
N scale_value_up 30.0 70.0 100.0 = 0.0 0.01
N scale_value_up 50.0 70.0 100.0 = 0.0 0.01
N scale_value_up 60.0 70.0 100.0 = 0.0 0.01
N scale_value_up 70.0 70.0 100.0 = 0.0 0.01
N scale_value_up 75.0 70.0 100.0 = 0.16 0.01
N scale_value_up 85.0 70.0 100.0 = 0.5 0.01
N scale_value_up 95.0 70.0 100.0 = 0.83 0.01
N scale_value_up 100.0 70.0 100.0 = 1.0 0.01
N scale_value_up 200.0 70.0 100.0 = 1.0 0.01
N scale_value_down -200.0 30.0 0.0 = 1.0 0.01
N scale_value_down 0.0 30.0 0.0 = 1.0 0.01
N scale_value_down 10.0 30.0 0.0 = 0.66 0.01
N scale_value_down 15.0 30.0 0.0 = 0.5 0.01
N scale_value_down 25.0 30.0 0.0 = 0.166 0.01
N scale_value_down 30.0 30.0 0.0 = 0.0 0.01
N scale_value_down 35.0 30.0 0.0 = 0.0 0.01
N scale_value_down 50.0 30.0 0.0 = 0.0 0.01
N scale_value_down 65.0 30.0 0.0 = 0.0 0.01
N scale_value_down 70.0 30.0 0.0 = 0.0 0.01
N scale_value_down 75.0 30.0 0.0 = 0.0 0.01
N scale_value_down 95.0 30.0 0.0 = 0.0 0.01
N scale_value_down 100.0 30.0 0.0 = 0.0 0.01
N scale_value_down 200.0 30.0 0.0 = 0.0 0.01
N scale_value_centered 0.0 50.0 30.0 70.0 = 0.0 0.01
N scale_value_centered 15.0 50.0 30.0 70.0 = 0.0 0.01
N scale_value_centered 25.0 50.0 30.0 70.0 = 0.0 0.01
N scale_value_centered 30.0 50.0 30.0 70.0 = 0.0 0.01
N scale_value_centered 40.0 50.0 30.0 70.0 = 0.5 0.01
N scale_value_centered 50.0 50.0 30.0 70.0 = 1.0 0.01
N scale_value_centered 60.0 50.0 30.0 70.0 = 0.5 0.01
N scale_value_centered 70.0 50.0 30.0 70.0 = 0.0 0.01
N scale_value_centered 75.0 50.0 30.0 70.0 = 0.0 0.01
N scale_value_centered 85.0 50.0 30.0 70.0 = 0.0 0.01
N scale_value_centered 100.0 50.0 30.0 70.0 = 0.0 0.01
N scale_value_min_max 0.0 0.0 100.0 = -1.0 0.01
N scale_value_min_max 15.0 0.0 100.0 = -0.7 0.01
N scale_value_min_max 25.0 0.0 100.0 = -0.5 0.01
N scale_value_min_max 30.0 0.0 100.0 = -0.4 0.01
N scale_value_min_max 40.0 0.0 100.0 = -0.2 0.01
N scale_value_min_max 50.0 0.0 100.0 = 0.0 0.01
N scale_value_min_max 60.0 0.0 100.0 = 0.2 0.01
N scale_value_min_max 70.0 0.0 100.0 = 0.4 0.01
N scale_value_min_max 75.0 0.0 100.0 = 0.5 0.01
N scale_value_min_max 85.0 0.0 100.0 = 0.7 0.01
N scale_value_min_max 100.0 0.0 100.0 = 1.0 0.01
