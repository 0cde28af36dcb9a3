while kill -0 8540 2>/dev/null; do sleep 10; done
cd /tmp/work
python3 seed.py mut13.json > seed13.out 2>&1
python3 seed.py mut14.json > seed14.out 2>&1
